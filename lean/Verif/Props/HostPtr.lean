/-
C96: get_host_ptr.
-/
import Verif.Model.HostPtr
import Verif.Spec.HostPtr
import Verif.Props.BlockVirt

namespace Verif.Block
open Verif.AS Verif.AS.Spec Verif.Block.Spec Verif.Region
namespace HostP

/-- **C96, the pointer**: a pointer get_host_ptr returns is a pointer to the host byte behind that virtual address; inside the page, and as
long as the region does not change, pointer arithmetic follows the guest addresses; a ram pointer is inside the ram buffer. -/
theorem C96_pointer (s : Space) (G : Good s) (ramSize : Nat) (tr : Mem → Addr → Option Addr × Mem)
    (I : Mem → Prop) (T : Cell → Prop) (pg : Addr → Option (Addr × Bool)) (V : Translates (noFlag tr) I T pg)
    (addr : Addr) (mem : Mem) (hI : I mem) (c : Cell) (h : (getHostPtr s ramSize tr addr mem).1 = .ret (.at_ c)) :
    VBackedBy s pg addr c ∧ (∀ i, c = .ram i → i < ramSize) ∧
    ∀ k r, addr.toNat % 4096 + k < 4096 → InRegion s pg addr r → InRegion s pg (addr + BitVec.ofNat 32 k) r →
      VBackedBy s pg (addr + BitVec.ofNat 32 k) (plus c k) := by
  have hs := V.same mem addr hI
  simp only [noFlag] at hs
  unfold getHostPtr at h
  generalize tr mem addr = t at h hs
  obtain ⟨t1, mem1⟩ := t
  cases t1 with
  | none => simp at h
  | some phys =>
    simp only at h hs
    have hpg : pg addr = some (phys, false) := hs.symm
    obtain ⟨r, hr⟩ := search_total G phys
    obtain ⟨q, hq, rfl, hqc⟩ := search_region G hr
    rw [hr] at h
    simp only at h
    have hal : (q.reg.type = .ram ∨ q.reg.type = .rom) → q.reg.aliased = none := by
      intro ht
      cases h5 : q.reg.aliased with
      | none => rfl
      | some o => have := (G.alias q hq).1.2 (by simp [h5]); rcases ht with h | h <;> rw [h] at this <;> cases this
    have hbuf : (q.reg.type = .ram ∨ q.reg.type = .rom) → q.reg.buffOff ≤ q.reg.start := by
      intro ht; exact G.buff q hq (by rcases ht with h | h <;> simp [h])
    have hoff := V.offset _ _ _ hpg
    have hp := addr_lt phys
    have shift : ∀ k, addr.toNat % 4096 + k < 4096 → (phys + BitVec.ofNat 32 k).toNat = phys.toNat + k := by
      intro k hk; exact toNat_add_small (by omega)
    unfold hostPtrIn at h
    have rest : (q.reg.type = .ram ∨ q.reg.type = .rom) → ∀ k r, addr.toNat % 4096 + k < 4096 → InRegion s pg addr r →
        InRegion s pg (addr + BitVec.ofNat 32 k) r → s.search (phys + BitVec.ofNat 32 k).toNat = some q.reg ∧
        Contains q.reg (phys + BitVec.ofNat 32 k).toNat ∧
        (phys + BitVec.ofNat 32 k - BitVec.ofNat 32 q.reg.buffOff).toNat = (phys - BitVec.ofNat 32 q.reg.buffOff).toNat + k := by
      intro ht k r hk ⟨p1, f1, e1, r1⟩ ⟨p2, f2, e2, r2⟩
      rw [hpg] at e1
      cases e1
      rw [V.paged _ _ _ k hpg hk] at e2
      cases e2
      rw [hr] at r1
      cases r1
      obtain ⟨w, hw, e, hwc⟩ := search_region G r2
      have := shift k hk
      have hb := hbuf ht
      have h1 := hqc.1
      exact ⟨r2, hwc, by rw [toNat_sub_le (by omega), toNat_sub_le (by omega)]; omega⟩
    cases ht : q.reg.type <;> rw [ht] at h <;> simp only at h
    case ram =>
      split at h
      · next hi =>
        cases h
        refine ⟨⟨_, _, hpg, .ram hr hqc (.here (hal (.inl ht))) hqc ht⟩, fun i e => (by cases e; exact hi), ?_⟩
        intro k r hk h1 h2
        obtain ⟨g1, g2, g3⟩ := rest (.inl ht) k r hk h1 h2
        refine ⟨_, _, V.paged _ _ _ k hpg hk, ?_⟩
        unfold plus
        simp only
        rw [← g3]
        exact .ram g1 g2 (.here (hal (.inl ht))) g2 ht
      · cases h
    case rom =>
      cases h
      refine ⟨⟨_, _, hpg, .rom hr hqc (.here (hal (.inr ht))) hqc ht⟩, fun i e => (by cases e), ?_⟩
      intro k r hk h1 h2
      obtain ⟨g1, g2, g3⟩ := rest (.inr ht) k r hk h1 h2
      refine ⟨_, _, V.paged _ _ _ k hpg hk, ?_⟩
      unfold plus
      simp only
      rw [← g3]
      exact .rom g1 g2 (.here (hal (.inr ht))) g2 ht
    all_goals cases h

/-- **C96, null**: with every ram region inside the ram buffer the call always returns; it gives nullptr with guest_exp exactly when
the address is not mapped, nullptr with invalid_parameter exactly when the address is mapped to a region that is neither ram nor rom, and
a pointer in every other case.  Memory outside of the page tables is not changed.
Partial: "is neither ram nor rom" is about the region itself, so that an alias of ram gives nullptr (see the violation below). -/
theorem C96_null_partial (s : Space) (G : Good s) (ramSize : Nat) (tr : Mem → Addr → Option Addr × Mem)
    (I : Mem → Prop) (T : Cell → Prop) (pg : Addr → Option (Addr × Bool)) (V : Translates (noFlag tr) I T pg) (F : RamFits s ramSize)
    (addr : Addr) (mem : Mem) (hI : I mem) :
    (∃ p, (getHostPtr s ramSize tr addr mem).1 = .ret p ∧
      (p = .guestExp ↔ pg addr = none) ∧
      (p = .invalidParameter ↔ ∃ r, InRegion s pg addr r ∧ r.type ≠ .ram ∧ r.type ≠ .rom) ∧
      ((∃ c, p = .at_ c) ↔ ∃ r, InRegion s pg addr r ∧ (r.type = .ram ∨ r.type = .rom))) ∧
    (∀ c, ¬ T c → (getHostPtr s ramSize tr addr mem).2 c = mem c) := by
  have hs := V.same mem addr hI
  have ho := V.only mem addr
  simp only [noFlag] at hs ho
  unfold getHostPtr
  generalize tr mem addr = t at hs ho
  obtain ⟨t1, mem1⟩ := t
  simp only at ho
  cases t1 with
  | none =>
    simp only [Option.map_none] at hs
    refine ⟨⟨_, rfl, ⟨fun _ => hs.symm, fun _ => rfl⟩, ⟨fun h => (by cases h), ?_⟩, ⟨fun ⟨c, h⟩ => (by cases h), ?_⟩⟩, ho⟩ <;>
    · rintro ⟨r, ⟨p, f, h, -⟩, -⟩
      rw [← hs] at h
      cases h
  | some phys =>
    have hpg : pg addr = some (phys, false) := hs.symm
    obtain ⟨r, hr⟩ := search_total G phys
    obtain ⟨q, hq, rfl, hqc⟩ := search_region G hr
    simp only [hr]
    have hin : InRegion s pg addr q.reg := ⟨_, _, hpg, hr⟩
    have uniq : ∀ r, InRegion s pg addr r → r = q.reg := by
      rintro r ⟨p, f, h1, h2⟩
      rw [hpg] at h1
      cases h1
      rw [hr] at h2
      cases h2
      rfl
    refine ⟨?_, ho⟩
    unfold hostPtrIn
    have bad : q.reg.type ≠ .ram → q.reg.type ≠ .rom →
        (HostPtr.invalidParameter = .guestExp ↔ pg addr = none) ∧
        (HostPtr.invalidParameter = .invalidParameter ↔ ∃ r, InRegion s pg addr r ∧ r.type ≠ .ram ∧ r.type ≠ .rom) ∧
        ((∃ c, HostPtr.invalidParameter = .at_ c) ↔ ∃ r, InRegion s pg addr r ∧ (r.type = .ram ∨ r.type = .rom)) := by
      intro h1 h2
      refine ⟨⟨fun h => (by cases h), fun h => (by rw [hpg] at h; cases h)⟩, ⟨fun _ => ⟨_, hin, h1, h2⟩, fun _ => rfl⟩,
        ⟨fun ⟨c, h⟩ => (by cases h), ?_⟩⟩
      rintro ⟨r, hr', ht⟩
      cases uniq r hr'
      rcases ht with h | h
      · exact absurd h h1
      · exact absurd h h2
    have good : ∀ c, (q.reg.type = .ram ∨ q.reg.type = .rom) →
        (HostPtr.at_ c = .guestExp ↔ pg addr = none) ∧
        (HostPtr.at_ c = .invalidParameter ↔ ∃ r, InRegion s pg addr r ∧ r.type ≠ .ram ∧ r.type ≠ .rom) ∧
        ((∃ d, HostPtr.at_ c = .at_ d) ↔ ∃ r, InRegion s pg addr r ∧ (r.type = .ram ∨ r.type = .rom)) := by
      intro c h
      refine ⟨⟨fun h => (by cases h), fun h => (by rw [hpg] at h; cases h)⟩, ⟨fun h => (by cases h), ?_⟩,
        ⟨fun _ => ⟨_, hin, h⟩, fun _ => ⟨c, rfl⟩⟩⟩
      rintro ⟨r, hr', h1, h2⟩
      cases uniq r hr'
      rcases h with h | h
      · exact absurd h h1
      · exact absurd h h2
    cases ht : q.reg.type <;> simp only
    case ram =>
      have hb := G.buff q hq (by simp [ht])
      have hf := F q hq ht
      have h1 := hqc.1
      have h2 := hqc.2
      have : (phys - BitVec.ofNat 32 q.reg.buffOff).toNat < ramSize := by
        rw [toNat_sub_le (by omega)]; omega
      rw [if_pos this]
      exact ⟨_, rfl, good _ (.inl ht)⟩
    case rom => exact ⟨_, rfl, good _ (.inr ht)⟩
    all_goals exact ⟨_, rfl, bad (by simp [ht]) (by simp [ht])⟩

/-- The region a physical address is in gives the one byte chunk. -/
theorem target_one {s : Space} (G : Good s) {ramSize fuel : Nat} {phys : Addr} {r : Region} (hr : s.search phys.toNat = some r) {c : Cell}
    (h : hostPtrIn r ramSize phys = .ret (.at_ c)) : (target s ramSize (fuel + 1) phys 1).cell 0 = some c := by
  obtain ⟨q, hq, rfl, hqc⟩ := search_region G hr
  unfold target
  simp only [hr]
  unfold resolve
  have e : phys + BitVec.ofNat 32 1 - 1 = phys := by
    rw [show BitVec.ofNat 32 1 = 1#32 from rfl]
    exact BitVec.add_sub_cancel phys 1#32
  rw [e, if_pos ⟨hqc.1, hqc.2⟩]
  unfold hostPtrIn at h
  cases ht : q.reg.type <;> rw [ht] at h <;> simp only at h ⊢
  case ram =>
    split at h
    · next hi =>
      rw [if_pos (by omega)]
      cases h
      rfl
    · cases h
  case rom => cases h; rfl
  all_goals cases h

/-- **C96, one memory**: the byte at the pointer is the byte mem_read_block_virt reads at that address. -/
theorem C96_reads_same (s : Space) (G : Good s) (ramSize fuel : Nat) (tr : Mem → Addr → Option Addr × Mem)
    (addr : Addr) (mem : Mem) (c : Cell) (h : (getHostPtr s ramSize tr addr mem).1 = .ret (.at_ c)) :
    ∃ res, readBlock s ramSize (fuel + 1) tr addr 1 mem = .ret res ∧ res.status = .success ∧
      res.out = [(getHostPtr s ramSize tr addr mem).2 c] ∧ res.mem = (getHostPtr s ramSize tr addr mem).2 := by
  unfold getHostPtr at h ⊢
  unfold readBlock readLoop
  rw [if_neg (by omega)]
  have hc : chunk addr 1 = 1 := by unfold chunk; omega
  simp only [hc]
  generalize tr mem addr = t at h ⊢
  obtain ⟨t1, mem1⟩ := t
  cases t1 with
  | none => simp at h
  | some phys =>
    simp only at h ⊢
    obtain ⟨r, hr⟩ := search_total G phys
    simp only [hr] at h ⊢
    have := target_one (fuel := fuel) G hr h
    cases ht : target s ramSize (fuel + 1) phys 1 <;> rw [ht] at this <;> simp only [Target.cell, reduceCtorEq] at this
    all_goals
      rw [Option.some.injEq] at this
      subst this
      unfold readLoop
      refine ⟨_, rfl, rfl, ?_, rfl⟩
      simp [peek]

/-- **C96, stores**: after the client stores a byte through a ram pointer (outside of the page tables), mem_read_block_virt reads that
byte at the address. -/
theorem C96_store (s : Space) (G : Good s) (ramSize fuel : Nat) (tr : Mem → Addr → Option Addr × Mem)
    (I : Mem → Prop) (T : Cell → Prop) (pg : Addr → Option (Addr × Bool)) (V : Translates (noFlag tr) I T pg)
    (addr : Addr) (mem : Mem) (hI : I mem) (i : Nat) (h : (getHostPtr s ramSize tr addr mem).1 = .ret (.at_ (.ram i))) (hT : ¬ T (.ram i))
    (v : Byte) :
    ∃ res, readBlock s ramSize (fuel + 1) tr addr 1 (store (getHostPtr s ramSize tr addr mem).2 (.ram i) v) = .ret res ∧
      res.status = .success ∧ res.out = [v] := by
  have hk : I (getHostPtr s ramSize tr addr mem).2 := by
    have := V.keeps mem addr hI
    simp only [noFlag] at this
    unfold getHostPtr
    generalize tr mem addr = t at this ⊢
    obtain ⟨_ | p, m⟩ := t
    · exact this
    · simp only
      split <;> exact this
  generalize hm : store (getHostPtr s ramSize tr addr mem).2 (.ram i) v = m2
  have hI2 : I m2 := by
    refine V.tables _ _ (fun c hc => ?_) hk
    rw [← hm]
    unfold store
    simp only
    rw [if_neg (fun e => hT (by rw [← e]; exact hc))]
  have same : (getHostPtr s ramSize tr addr m2).1 = (getHostPtr s ramSize tr addr mem).1 := by
    have e : (tr mem addr).1 = (tr m2 addr).1 := by
      have e1 := V.same mem addr hI
      have e2 := V.same m2 addr hI2
      simp only [noFlag] at e1 e2
      rw [← e2] at e1
      cases h1 : (tr mem addr).1 <;> cases h2 : (tr m2 addr).1 <;> rw [h1, h2] at e1 <;> simp at e1 ⊢
      exact e1
    unfold getHostPtr
    generalize tr mem addr = t at e ⊢
    generalize tr m2 addr = u at e ⊢
    obtain ⟨t1, m⟩ := t
    obtain ⟨u1, m'⟩ := u
    simp only at e
    subst e
    cases t1 with
    | none => rfl
    | some p => simp only; split <;> rfl
  obtain ⟨res, h1, h2, h3, -⟩ := C96_reads_same s G ramSize fuel tr addr m2 _ (same.trans h)
  refine ⟨res, h1, h2, ?_⟩
  rw [h3]
  have ho := V.only m2 addr (.ram i) hT
  simp only [noFlag] at ho
  have : (getHostPtr s ramSize tr addr m2).2 = (tr m2 addr).2 := by
    unfold getHostPtr
    generalize tr m2 addr = u
    obtain ⟨_ | p, m⟩ := u
    · rfl
    · simp only; split <;> rfl
  rw [this, ho, ← hm]
  simp [store]

/-- The case of C12: page 1 of the address space is at 0x2000 in ram; the hypotheses are met. -/
example : RamFits exMap 0x10010 ∧
    (getHostPtr exMap 0x10010 (fun m a => ((exTr m a).1.map Prod.fst, (exTr m a).2)) 0x1234 (fun _ => 1)).1 = .ret (.at_ (.ram 0x2234)) ∧
    (getHostPtr exMap 0x10010 (fun m a => ((exTr m a).1.map Prod.fst, (exTr m a).2)) 0x3234 (fun _ => 1)).1 = .ret .guestExp ∧
    (getHostPtr exMap 0x10010 physR 0x10004 (fun _ => 1)).1 = .ret (.at_ (.rom 7 4)) ∧
    (getHostPtr exMap 0x10010 physR 0x11000 (fun _ => 1)).1 = .ret .invalidParameter := by
  refine ⟨by unfold RamFits; decide, rfl, rfl, rfl, rfl⟩

/-- **C96 fails for aliases**: an address in an alias of ram is backed by a ram byte, which mem_read_block_virt reads, but get_host_ptr says
that it does not map to ram or rom. -/
theorem C96_alias_violation : ∃ s ramSize c rd, Good s ∧ RamFits s ramSize ∧ BackedBy s 0x20004 c ∧
    (getHostPtr s ramSize physR 0x20004 (fun _ => 5)).1 = .ret .invalidParameter ∧
    readBlock s ramSize 4 physR 0x20004 1 (fun _ => 5) = .ret rd ∧ rd.status = .success ∧ rd.out = [5] := by
  have h := C12_read_actual_size_partial exMap exMap_good exMap_below 0x10010 4 0x20004 1 (fun _ => 5) _ rfl
  obtain ⟨c, hc, -⟩ := h.2.2.2.2.1 0 (by decide)
  exact ⟨exMap, 0x10010, c, _, exMap_good, by unfold RamFits; decide, by simpa using hc, rfl, rfl, rfl, rfl⟩

end HostP
end Verif.Block
