/-
The memory map as a bus of the TLB, and the region recorded with a TLB entry.
-/
import Verif.Lemmas.TlbHist
import Verif.Lemmas.Block

namespace Verif.Paging
open Verif.Paging.Spec Verif.Bits
open Verif.AS Verif.AS.Spec Verif.Block Verif.Region

/-- as_memory_search_addr and correct_phys_addr over a memory map (memory_management.hpp 48-54, memory_management.cpp 40-58). -/
def busOf (s : Space) (fuel : Nat) (a20 : BitVec 32) : Bus :=
  { search := fun a => (s.search a.toNat).getD { start := 0, stop := 0 }
    locate := fun a =>
      let r := (s.search a.toNat).getD { start := 0, stop := 0 }
      match correctPhysAddr s.nodes fuel a20 r a with
      | .done p => p
      | _ => (r, a) }

theorem pageBase_eq_iff (a b : Addr) : pageBase a = pageBase b ↔ a.toNat / 4096 = b.toNat / 4096 := by
  have e : ∀ x : Addr, (pageBase x).toNat = x.toNat / 4096 * 4096 := by
    intro x
    have : pageBase x = (x >>> 12) <<< 12 := by unfold pageBase; bits32
    rw [this, BitVec.toNat_shiftLeft, BitVec.toNat_ushiftRight, Nat.shiftLeft_eq, Nat.shiftRight_eq_div_pow]
    have := x.isLt
    omega
  constructor
  · intro h; have := congrArg BitVec.toNat h; rw [e, e] at this; omega
  · intro h; apply BitVec.eq_of_toNat_eq; rw [e, e, h]

theorem low_eq_iff (a b : Addr) : a &&& 0xFFF#32 = b &&& 0xFFF#32 ↔ a.toNat % 4096 = b.toNat % 4096 := by
  have e : ∀ x : Addr, (x &&& 0xFFF#32).toNat = x.toNat % 4096 := by
    intro x
    rw [BitVec.toNat_and]
    have : (0xFFF#32 : Addr).toNat = 2 ^ 12 - 1 := by decide
    rw [this, Nat.and_two_pow_sub_one_eq_mod]
  constructor
  · intro h; have := congrArg BitVec.toNat h; rw [e, e] at this; exact this
  · intro h; apply BitVec.eq_of_toNat_eq; rw [e, e, h]

theorem ofNat_mod {n : Nat} (h : n % 4096 = 0) : (BitVec.ofNat 32 n).toNat % 4096 = 0 := by
  rw [BitVec.toNat_ofNat]; omega

theorem correctLoop_aligned {m : List Node} (h : ∀ n ∈ m, n.reg.start % 4096 = 0 ∧ n.reg.aliasOff % 4096 = 0) :
    ∀ (f : Nat) (r : Region) (off : BitVec 32) (p : Region × BitVec 32), r.start % 4096 = 0 → r.aliasOff % 4096 = 0 → off.toNat % 4096 = 0 →
      correctLoop m f r off = .done p → p.2.toNat % 4096 = 0 := by
  intro f
  induction f with
  | zero => intro r off p _ _ _ hc; simp [correctLoop] at hc
  | succ f ih =>
    intro r off p h1 h2 h3 hc
    unfold correctLoop at hc
    split at hc
    · simp only [LoopRes.done.injEq] at hc; rw [← hc]; exact h3
    · split at hc
      · simp at hc
      · next q hq =>
        obtain ⟨g1, g2⟩ := h q (findOid_mem hq)
        refine ih q.reg _ p g1 g2 ?_ hc
        have a1 := ofNat_mod h1
        have a2 := ofNat_mod h2
        have a3 := ofNat_mod g1
        generalize BitVec.ofNat 32 r.start = x1 at *
        generalize BitVec.ofNat 32 r.aliasOff = x2 at *
        generalize BitVec.ofNat 32 q.reg.start = x3 at *
        simp only [BitVec.toNat_add, BitVec.toNat_sub]
        have := x1.isLt; have := x2.isLt; have := x3.isLt; have := off.isLt
        omega

theorem and_mask (x m : Addr) (hm : m &&& 0xFFF#32 = 0xFFF#32) : (x &&& m) &&& 0xFFF#32 = x &&& 0xFFF#32 := by
  rw [BitVec.and_assoc, hm]

theorem base_mask (x m : Addr) : pageBase (x &&& m) = pageBase x &&& m := by
  unfold pageBase; ac_rfl

/-- A memory map in which every region starts and ends on page boundaries and aliases are shifted by whole pages. -/
structure PageAligned (s : Space) : Prop where
  start : ∀ n ∈ s.nodes, n.reg.start % 4096 = 0
  stop : ∀ n ∈ s.nodes, (n.reg.stop + 1) % 4096 = 0
  off : ∀ n ∈ s.nodes, n.reg.aliasOff % 4096 = 0

theorem search_samePage {s : Space} (hg : Good s) (ha : PageAligned s) {a a' : Addr} (h : pageBase a = pageBase a') :
    s.search a.toNat = s.search a'.toNat := by
  rw [pageBase_eq_iff] at h
  have hmax : a.toNat ≤ s.max := by rw [hg.max]; have := a.isLt; unfold maxAddr; omega
  obtain ⟨n, hn, hc⟩ := hg.tiled.exists_contains hmax
  have h1 := ha.start n hn
  have h2 := ha.stop n hn
  rw [hg.tiled.search_of_mem hn hc]
  rw [hg.tiled.search_of_mem hn (a := a'.toNat)]
  obtain ⟨c1, c2⟩ := hc
  constructor <;> omega

theorem busOf_pageWise {s : Space} (hg : Good s) (ha : PageAligned s) (fuel : Nat) {a20 : BitVec 32} (hm : a20 &&& 0xFFF#32 = 0xFFF#32) :
    PageWise (busOf s fuel a20) := by
  have reg : ∀ a : Addr, ∃ n ∈ s.nodes, (s.search a.toNat).getD { start := 0, stop := 0 } = n.reg := by
    intro a
    obtain ⟨r, hr⟩ := search_total hg a
    obtain ⟨n, hn, rfl, _⟩ := search_region hg hr
    exact ⟨n, hn, by rw [hr]; rfl⟩
  have al : ∀ n ∈ s.nodes, n.reg.start % 4096 = 0 ∧ n.reg.aliasOff % 4096 = 0 := fun n hn => ⟨ha.start n hn, ha.off n hn⟩
  -- the correction of an address by a region is subtraction of a page multiple followed by the mask, or nothing
  have shape : ∀ n ∈ s.nodes, (∃ z off, off.toNat % 4096 = 0 ∧ ∀ a, correctPhysAddr s.nodes fuel a20 n.reg a = .done (z, (a - off) &&& a20)) ∨
      (∀ a, ∀ p, correctPhysAddr s.nodes fuel a20 n.reg a ≠ .done p) := by
    intro n hn
    unfold correctPhysAddr
    by_cases ht : n.reg.type = .alias
    · simp only [if_pos ht]
      cases hc : correctLoop s.nodes fuel n.reg 0 with
      | done p =>
        left
        have h0 : (0 : BitVec 32).toNat % 4096 = 0 := by decide
        exact ⟨p.1, p.2, correctLoop_aligned al fuel n.reg 0 p (al n hn).1 (al n hn).2 h0 hc, fun a => rfl⟩
      | ub => right; intro a p; simp [LoopRes.map]
      | running => right; intro a p; simp [LoopRes.map]
    · left
      simp only [if_neg ht]
      exact ⟨n.reg, 0#32, by decide, fun a => by rw [BitVec.sub_zero]⟩
  have fixEq : ∀ (a : Addr) (n : Node), (s.search a.toNat).getD { start := 0, stop := 0 } = n.reg →
      (busOf s fuel a20).fix a = match correctPhysAddr s.nodes fuel a20 n.reg a with | .done p => p.2 | _ => a := by
    intro a n hn
    unfold Bus.fix busOf
    simp only [hn]
    cases correctPhysAddr s.nodes fuel a20 n.reg a <;> rfl
  constructor
  · intro a
    obtain ⟨n, hn, e⟩ := reg a
    rw [fixEq a n e]
    rcases shape n hn with ⟨z, off, h0, h1⟩ | h1
    · rw [h1 a]
      simp only
      rw [and_mask _ _ hm, low_eq_iff, BitVec.toNat_sub]
      have := off.isLt; have := a.isLt
      omega
    · have := h1 a
      cases hc : correctPhysAddr s.nodes fuel a20 n.reg a with
      | done p => exact absurd hc (this p)
      | ub => rfl
      | running => rfl
  · intro a a' hp
    obtain ⟨n, hn, e⟩ := reg a
    have e' : (s.search a'.toNat).getD { start := 0, stop := 0 } = n.reg := by rw [← search_samePage hg ha hp]; exact e
    rw [fixEq a n e, fixEq a' n e']
    rcases shape n hn with ⟨z, off, h0, h1⟩ | h1
    · rw [h1 a, h1 a']
      simp only
      rw [base_mask, base_mask]
      have : pageBase (a - off) = pageBase (a' - off) := by
        rw [pageBase_eq_iff] at hp ⊢
        rw [BitVec.toNat_sub, BitVec.toNat_sub]
        have := off.isLt; have := a.isLt; have := a'.isLt
        omega
      rw [this]
    · have k1 := h1 a
      have k2 := h1 a'
      cases hc : correctPhysAddr s.nodes fuel a20 n.reg a with
      | done p => exact absurd hc (k1 p)
      | ub => cases hc' : correctPhysAddr s.nodes fuel a20 n.reg a' with
        | done p => exact absurd hc' (k2 p)
        | ub => exact hp
        | running => exact hp
      | running => cases hc' : correctPhysAddr s.nodes fuel a20 n.reg a' with
        | done p => exact absurd hc' (k2 p)
        | ub => exact hp
        | running => exact hp

/-! ### the region recorded with an entry -/

/-- The kind bits of an entry describe its region, and the region comes from the map. -/
def RegionOk (b : Bus) (l : Line) : Prop :=
  l.entry &&& 0xF#64 ≠ 0#64 → ∃ x, l.region = some (b.locate x).1 ∧
    l.entry &&& 0x8E0#64 = kindBits (b.locate x).1 (b.locate x).2 ∧ pageBase (l.entry.setWidth 32) = pageBase (b.locate x).2

theorem walk_prot_kind {fix : Addr → Addr} {c : Ctl} {m m' : Mem} {va phys : Addr} {prot : Word} {wr pr sc : Bool}
    (h : walk fix c m va wr pr sc = (.ok phys prot, m')) : prot &&& 0x8E0#32 = 0#32 ∧ prot &&& 0xFFFFF000#32 = 0#32 := by
  cases hp : pagingOn c with
  | false =>
    have hpg : c.cr0 &&& 0x80000000#32 = 0#32 := by
      rw [bit_test c.cr0 _ 31 (by decide) (by omega)]
      simpa [pagingOn] using hp
    unfold walk at h
    rw [if_pos hpg] at h
    simp only [Prod.mk.injEq, Walk.ok.injEq] at h
    obtain ⟨⟨rfl, rfl⟩, rfl⟩ := h
    cases sc <;> decide
  | true =>
    cases hmp : mapping fix c m va with
    | none => rw [walk_none hp hmp] at h; simp at h
    | some mp =>
      obtain ⟨h0, h1⟩ := walk_some (wr := wr) (pr := pr) (sc := sc) hp hmp
      cases hg : granted (writeProtect c) mp.user (codeWritable m mp) (userAccess c pr) wr with
      | false => rw [h0 hg] at h; simp at h
      | true =>
        obtain ⟨m2, e, hm⟩ := h1 hg
        rw [e] at h
        simp only [Prod.mk.injEq, Walk.ok.injEq] at h
        obtain ⟨⟨rfl, rfl⟩, rfl⟩ := h
        have r1 : ∀ wp u w, rightsMask wp u w &&& 0x8E0#32 = 0#32 ∧ rightsMask wp u w &&& 0xFFFFF000#32 = 0#32 := by
          intro wp u w; unfold rightsMask; cases wp <;> cases u <;> cases w <;> decide
        have t1 : protTail c (word m mp.leafAddr) wr sc &&& 0x8E0#32 = 0#32 := by
          unfold protTail
          cases wr <;> cases sc <;> simp only [Bool.false_eq_true, if_false, if_true] <;> bits32
        have t2 := (protTail_low c (word m mp.leafAddr) wr sc).2.1
        exact ⟨by rw [or_and_right, (r1 _ _ _).1, t1]; rfl, by rw [or_and_right, (r1 _ _ _).2, t2]; rfl⟩

theorem mkEntry_kind {g : Geo} (hg : IsGeo g) (a p : Addr) (r : Region) {prot : Word} (h : prot &&& 0x8E0#32 = 0#32) :
    mkEntry g a p r prot &&& 0x8E0#64 = kindBits r p := by
  have h1 : (pageBase p).setWidth 64 &&& 0x8E0#64 = 0#64 := by unfold pageBase; bits64
  have h2 : (prot &&& ~~~ 16#32).setWidth 64 &&& 0x8E0#64 = 0#64 := by
    have e : (prot &&& ~~~ 16#32).setWidth 64 &&& 0x8E0#64 = ((prot &&& 0x8E0#32) &&& ~~~ 16#32).setWidth 64 := by bits64
    rw [e, h]; decide
  have h3 : kindBits r p &&& 0x8E0#64 = kindBits r p := by rcases kindBits_cases r p with h | h | h | h | h <;> rw [h] <;> decide
  have h4 : g.tag a &&& 0x8E0#64 = 0#64 := by cases hg <;> unfold Geo.tag <;> simp only [dGeo, iGeo] <;> bits64
  unfold mkEntry
  simp only [or_and_right, h1, h2, h3, h4]; simp

theorem regionOk_zero (b : Bus) : RegionOk b Line.zero := by intro h; simp [Line.zero] at h

theorem regionOk_dirty {b : Bus} {l : Line} (h : RegionOk b l) : RegionOk b { l with entry := l.entry ||| 0x200#64 } := by
  intro hv
  have e1 : ∀ k : Entry, 0x200#64 &&& k = 0#64 → (l.entry ||| 0x200#64) &&& k = l.entry &&& k := by
    intro k hk; rw [or_and_right, hk, BitVec.or_zero]
  simp only [e1 0xF#64 (by decide), e1 0x8E0#64 (by decide)] at hv ⊢
  obtain ⟨x, h1, h2, h3⟩ := h hv
  refine ⟨x, h1, h2, ?_⟩
  rw [← h3, BitVec.setWidth_or]
  unfold pageBase; rw [or_and_right]
  have : (BitVec.setWidth 32 (0x200#64 : Entry)) &&& 0xFFFFF000#32 = 0#32 := by decide
  rw [this, BitVec.or_zero]

def RegInv (b : Bus) (s : St) : Prop := (∀ x i, RegionOk b (s.dtlb x i)) ∧ ∀ x i, RegionOk b (s.itlb x i)

theorem regInv_translate {b : Bus} {s : St} (h : RegInv b s) (f : Bool) (va : Addr) (wr pr sc : Bool) (v : Nat) :
    RegInv b (translate b s f va wr pr sc v).1 := by
  unfold translate
  cases hw : walk b.fix s.ctl s.mem va wr pr sc with
  | mk w m' =>
    cases w with
    | fault a code => exact h
    | ub => exact h
    | ok phys prot =>
      obtain ⟨k1, k2⟩ := walk_prot_kind hw
      have key : ∀ {g : Geo}, IsGeo g → ∀ (t : Tlb), (∀ x i, RegionOk b (t x i)) →
          ∀ x i, RegionOk b (fillTlb g t va (b.locate phys).2 (b.locate phys).1 prot v x i) := by
        intro g hg t ht x i
        unfold fillTlb Tlb.put
        split
        · intro _
          exact ⟨phys, rfl, mkEntry_kind hg _ _ _ k1, mkEntry_page hg _ _ _ k2⟩
        · exact ht x i
      simp only [fill]
      cases f
      · exact ⟨key .d s.dtlb h.1, h.2⟩
      · exact ⟨h.1, key .i s.itlb h.2⟩

theorem regInv_step {b : Bus} {s : St} (h : RegInv b s) (op : Paging.Spec.Op) : RegInv b (step b s op) := by
  cases op with
  | read va pr v =>
    simp only [step, getRead]
    split
    · exact h
    · exact regInv_translate h _ _ _ _ _ _
  | readSlow va pr v => exact regInv_translate h _ _ _ _ _ _
  | write va pr v =>
    simp only [step, getWrite]
    split
    · refine ⟨fun x i => ?_, h.2⟩
      simp only [Tlb.put]
      split
      · exact regionOk_dirty (h.1 _ _)
      · exact h.1 x i
    · exact regInv_translate h _ _ _ _ _ _
  | writeSlow va pr v => exact regInv_translate h _ _ _ _ _ _
  | code va sc v =>
    simp only [step, getCode]
    split
    · exact h
    · exact regInv_translate h _ _ _ _ _ _
  | inval va =>
    have key : ∀ (g : Geo) (t : Tlb), (∀ x i, RegionOk b (t x i)) → ∀ x i, RegionOk b (invalidateTlb g t va x i) := by
      intro g t ht x i
      unfold invalidateTlb
      cases List.find? (fun i => matches' g (1#64) va (t (g.set va) i).entry) (List.range g.lines) with
      | some k =>
        simp only [Tlb.put]; split
        · exact regionOk_zero b
        · exact ht x i
      | none => exact ht x i
    exact ⟨key _ _ h.1, key _ _ h.2⟩
  | cpl l => exact h
  | store m => exact h
  | reload c m => exact ⟨fun _ _ => regionOk_zero b, fun _ _ => regionOk_zero b⟩
  | reloadLocal c m =>
    have key : ∀ l : Line, RegionOk b l → RegionOk b (keepGlobal l) := by
      intro l hl; unfold keepGlobal; split
      · exact regionOk_zero b
      · exact hl
    exact ⟨fun x i => key _ (h.1 x i), fun x i => key _ (h.2 x i)⟩

theorem regInv_reachable {b : Bus} {s : St} (h : Reachable b s) : RegInv b s := by
  induction h with
  | start c m smc => exact ⟨fun _ _ => regionOk_zero b, fun _ _ => regionOk_zero b⟩
  | next op _ _ ih => exact regInv_step ih op

end Verif.Paging
