/-
C12 for the virtual block functions: mem_read_block_virt, mem_write_block_virt, mem_fill_block_virt.
-/
import Verif.Spec.BlockVirt
import Verif.Props.Block

namespace Verif.Block
open Verif.AS Verif.AS.Spec Verif.Block.Spec Verif.Region

/-- What a virtual read did. -/
def VReadOk (s : Space) (T : Cell → Prop) (pg : Addr → Option (Addr × Bool)) (addr : Addr) (left vec : Nat) (out : List Byte) (mem : Mem) (res : ReadRes) : Prop :=
  ∃ k l, res.actual = vec + k ∧ k ≤ left ∧ res.out = out ++ l ∧ l.length = k ∧ (∀ c, ¬ T c → res.mem c = mem c) ∧
    (res.status = .success ↔ k = left) ∧
    (∀ i, i < k → ∃ c, VBackedBy s pg (addr + BitVec.ofNat 32 i) c ∧ (¬ T c → l[i]? = some (mem c))) ∧
    (res.status = .guestExp → pg (addr + BitVec.ofNat 32 k) = none) ∧
    (res.status = .internalError → ∃ p f, pg (addr + BitVec.ofNat 32 k) = some (p, f) ∧
      ¬ ChunkOk s p (chunk (addr + BitVec.ofNat 32 k) (left - k)))

theorem vreadLoop_spec {s : Space} (G : Good s) (B : AliasesBelowTop s) {ramSize fuel : Nat} {tr : Mem → Addr → Option Addr × Mem}
    {I : Mem → Prop} {T : Cell → Prop} {pg : Addr → Option (Addr × Bool)} (V : Translates (noFlag tr) I T pg) :
    ∀ (it : Nat) (addr : Addr) (left vec : Nat) (out : List Byte) (mem : Mem) (res : ReadRes), I mem →
    readLoop s ramSize fuel tr it addr left vec out mem = .ret res → VReadOk s T pg addr left vec out mem res := by
  intro it
  have base : ∀ (addr : Addr) (left vec : Nat) (out : List Byte) (mem : Mem) (res : ReadRes), left = 0 →
      (Outcome.ret ⟨.success, vec, out, mem⟩ : Outcome ReadRes) = .ret res → VReadOk s T pg addr left vec out mem res := by
    intro addr left vec out mem res hl h
    cases h
    exact ⟨0, [], rfl, by omega, by simp, rfl, fun _ _ => rfl, by simp [hl], by simp, by simp, by simp⟩
  induction it with
  | zero =>
    intro addr left vec out mem res _ h
    unfold readLoop at h
    split at h
    · next hl => exact base _ _ _ _ _ _ hl h
    · cases h
  | succ it ih =>
    intro addr left vec out mem res hI h
    unfold readLoop at h
    split at h
    · next hl => exact base _ _ _ _ _ _ hl h
    · next hl =>
      obtain ⟨c1, c2, c3⟩ := chunk_pos (a := addr) hl
      have hs := V.same mem addr hI
      have hk := V.keeps mem addr hI
      have ho := V.only mem addr
      simp only [noFlag] at hs hk ho
      simp only at h
      generalize hn : chunk addr left = n at h c1 c2 c3
      generalize ht : tr mem addr = t at h hs hk ho
      obtain ⟨t1, mem1⟩ := t
      simp only at h hs hk ho
      cases t1 with
      | none =>
        cases h
        exact ⟨0, [], rfl, by omega, by simp, rfl, ho, ⟨fun h => (by cases h), fun h => absurd h.symm hl⟩, by simp,
          fun _ => by simpa using hs.symm, fun h => (by cases h)⟩
      | some phys =>
        simp only at h
        have hpg : pg addr = some (phys, false) := by rw [← hs]; rfl
        have c3' : phys.toNat % 4096 + n ≤ 4096 := by rw [V.offset _ _ _ hpg]; exact c3
        have go : ∀ cellf : Nat → Cell, (∀ k, k < n → (target s ramSize fuel phys n).cell k = some (cellf k)) →
            readLoop s ramSize fuel tr it (addr + BitVec.ofNat 32 n) (left - n) (vec + n) (out ++ peek mem1 cellf n) mem1 = .ret res →
            VReadOk s T pg addr left vec out mem res := by
          intro cellf hcell hrec
          obtain ⟨k, l, h1, h2, h3, h4, h5, h6, h7, h8, h9⟩ := ih _ _ _ _ _ _ hk hrec
          refine ⟨n + k, peek mem1 cellf n ++ l, by omega, by omega, by rw [h3, List.append_assoc], by simp [peek_length, h4],
            fun c hc => by rw [h5 c hc, ho c hc], by rw [h6]; omega, ?_, ?_, ?_⟩
          · intro i hi
            by_cases hin : i < n
            · refine ⟨cellf i, ⟨_, _, V.paged _ _ _ i hpg (by omega), (target_ok G B c1 c3' hin (hcell i hin)).1⟩, fun hT => ?_⟩
              rw [List.getElem?_append_left (by rw [peek_length]; exact hin), peek_get _ _ _ _ hin, ho _ hT]
            · obtain ⟨c, hc, hl'⟩ := h7 (i - n) (by omega)
              refine ⟨c, ?_, fun hT => ?_⟩
              · rw [ofNat_add_addr] at hc
                rwa [show n + (i - n) = i by omega] at hc
              · rw [List.getElem?_append_right (by rw [peek_length]; omega), peek_length, hl' hT, ho _ hT]
          · intro hst
            have := h8 hst
            rwa [ofNat_add_addr] at this
          · intro hst
            have := h9 hst
            rw [ofNat_add_addr] at this
            rwa [show left - n - k = left - (n + k) by omega] at this
        cases ht : target s ramSize fuel phys n with
        | ram i =>
          rw [ht] at h go
          exact go _ (fun k _ => rfl) h
        | rom p i =>
          rw [ht] at h go
          exact go _ (fun k _ => rfl) h
        | fail =>
          rw [ht] at h
          cases h
          refine ⟨0, [], rfl, by omega, by simp, rfl, ho, ⟨fun h => (by cases h), fun h => absurd h.symm hl⟩, by simp, fun h => (by cases h), ?_⟩
          intro _
          refine ⟨phys, false, by simpa using hpg, ?_⟩
          have := target_fail G c1 c3' ht
          simpa [hn] using this
        | ub => rw [ht] at h; cases h
        | hangs => rw [ht] at h; cases h

/-- **C12, virtual reads**: whenever mem_read_block_virt returns, actual_size is the number of bytes delivered and success is reported
exactly for the whole size; each delivered byte is the byte behind that virtual address (page table cells may have got their
accessed bit meanwhile); memory outside the page tables is not changed; it stopped with a guest exception at the first page that is
not mapped, or with an internal error at the first page chunk that does not lie in (and forward into) a single ram or rom region. -/
theorem C12_read_virt_partial (s : Space) (G : Good s) (B : AliasesBelowTop s) (ramSize fuel : Nat) (tr : Mem → Addr → Option Addr × Mem)
    (I : Mem → Prop) (T : Cell → Prop) (pg : Addr → Option (Addr × Bool)) (V : Translates (noFlag tr) I T pg)
    (addr : Addr) (size : Nat) (mem : Mem) (hI : I mem) (res : ReadRes) (h : readBlock s ramSize fuel tr addr size mem = .ret res) :
    res.actual ≤ size ∧ res.out.length = res.actual ∧ (res.status = .success ↔ res.actual = size) ∧ (∀ c, ¬ T c → res.mem c = mem c) ∧
    (∀ i, i < res.actual → ∃ c, VBackedBy s pg (addr + BitVec.ofNat 32 i) c ∧ (¬ T c → res.out[i]? = some (mem c))) ∧
    (res.status = .guestExp → pg (addr + BitVec.ofNat 32 res.actual) = none) ∧
    (res.status = .internalError → ∃ p f, pg (addr + BitVec.ofNat 32 res.actual) = some (p, f) ∧
      ¬ ChunkOk s p (chunk (addr + BitVec.ofNat 32 res.actual) (size - res.actual))) := by
  obtain ⟨k, l, h1, h2, h3, h4, h5, h6, h7, h8, h9⟩ := vreadLoop_spec G B V _ _ _ _ _ _ _ hI h
  simp only [Nat.zero_add, List.nil_append] at h1 h3
  rw [h1, h3]
  exact ⟨h2, h4, h6, h5, h7, h8, h9⟩

/-- What a virtual write did. -/
def VWriteOk (s : Space) (T : Cell → Prop) (pg : Addr → Option (Addr × Bool)) (addr : Addr) (left tot : Nat) (v : Nat → Byte) (mem : Mem) (res : WriteRes) : Prop :=
  ∃ k at_, res.actual = tot + k ∧ k ≤ left ∧ (∀ i, i < k → VBackedBy s pg (addr + BitVec.ofNat 32 i) (at_ i)) ∧
    (∀ c, ¬ T c → res.mem c = storeAll mem at_ v k c) ∧ (res.status = .success ↔ k = left) ∧
    (∀ i p, i < k → pg (addr + BitVec.ofNat 32 i) = some (p, true) → ∃ e ∈ res.invs, ∃ d, d < e.2 ∧ p = e.1 + BitVec.ofNat 32 d) ∧
    (res.status = .guestExp → pg (addr + BitVec.ofNat 32 k) = none) ∧
    (res.status = .internalError → ∃ p f, pg (addr + BitVec.ofNat 32 k) = some (p, f) ∧
      ¬ ChunkOk s p (chunk (addr + BitVec.ofNat 32 k) (left - k)))

theorem storeAll_cell {m m' : Mem} (at_ : Nat → Cell) (v : Nat → Byte) (n : Nat) (c : Cell) (h : m c = m' c) :
    storeAll m at_ v n c = storeAll m' at_ v n c := by
  induction n with
  | zero => exact h
  | succ n ih =>
    simp only [storeAll]
    cases at_ n with
    | ram i => simp only [store]; split <;> first | rfl | exact ih
    | rom p i => exact ih

theorem vwriteLoop_spec {s : Space} (G : Good s) (B : AliasesBelowTop s) {ramSize fuel : Nat} {tr : Mem → Addr → Option (Addr × Bool) × Mem}
    {I : Mem → Prop} {T : Cell → Prop} {pg : Addr → Option (Addr × Bool)} (V : Translates tr I T pg) :
    ∀ (it : Nat) (addr : Addr) (left tot : Nat) (src : Src) (mem : Mem) (invs : List (Addr × Nat)) (res : WriteRes), I mem →
    (∀ i c, i < left → VBackedBy s pg (addr + BitVec.ofNat 32 i) c → ¬ T c) →
    writeLoop s ramSize fuel tr it addr left tot src mem invs = .ret res →
    (∀ e ∈ invs, e ∈ res.invs) ∧ VWriteOk s T pg addr left tot src.byte mem res := by
  intro it
  have base : ∀ (addr : Addr) (left tot : Nat) (src : Src) (mem : Mem) (invs : List (Addr × Nat)) (res : WriteRes), left = 0 →
      (Outcome.ret ⟨.success, tot, mem, invs⟩ : Outcome WriteRes) = .ret res →
      (∀ e ∈ invs, e ∈ res.invs) ∧ VWriteOk s T pg addr left tot src.byte mem res := by
    intro addr left tot src mem invs res hl h
    cases h
    exact ⟨fun _ h => h, 0, fun _ => .ram 0, rfl, by omega, by simp, fun _ _ => rfl, by simp [hl], by simp, by simp, by simp⟩
  induction it with
  | zero =>
    intro addr left tot src mem invs res _ _ h
    unfold writeLoop at h
    split at h
    · next hl => exact base _ _ _ _ _ _ _ hl h
    · cases h
  | succ it ih =>
    intro addr left tot src mem invs res hI hsep h
    unfold writeLoop at h
    split at h
    · next hl => exact base _ _ _ _ _ _ _ hl h
    · next hl =>
      obtain ⟨c1, c2, c3⟩ := chunk_pos (a := addr) hl
      have hs := V.same mem addr hI
      have hk := V.keeps mem addr hI
      have ho := V.only mem addr
      simp only at h
      generalize hn : chunk addr left = n at h c1 c2 c3
      generalize ht : tr mem addr = t at h hs hk ho
      obtain ⟨t1, mem1⟩ := t
      simp only at h hs hk ho
      cases t1 with
      | none =>
        cases h
        exact ⟨fun _ h => h, 0, fun _ => .ram 0, rfl, by omega, by simp, ho, ⟨fun h => (by cases h), fun h => absurd h.symm hl⟩, by simp,
          fun _ => by simpa using hs.symm, fun h => (by cases h)⟩
      | some q =>
        obtain ⟨phys, isCode⟩ := q
        simp only at h
        have hpg : pg addr = some (phys, isCode) := hs.symm
        have c3' : phys.toNat % 4096 + n ≤ 4096 := by rw [V.offset _ _ _ hpg]; exact c3
        have go : ∀ (cellf : Nat → Cell) (mem' : Mem), (∀ k, k < n → (target s ramSize fuel phys n).cell k = some (cellf k)) →
            mem' = storeAll mem1 cellf src.byte n →
            writeLoop s ramSize fuel tr it (addr + BitVec.ofNat 32 n) (left - n) (tot + n) (src.advance n) mem'
              (if isCode then invs ++ [(phys, n)] else invs) = .ret res →
            (∀ e ∈ invs, e ∈ res.invs) ∧ VWriteOk s T pg addr left tot src.byte mem res := by
          intro cellf mem' hcell hmem hrec
          have hb : ∀ i, i < n → VBackedBy s pg (addr + BitVec.ofNat 32 i) (cellf i) := fun i hi =>
            ⟨_, _, V.paged _ _ _ i hpg (by omega), (target_ok G B c1 c3' hi (hcell i hi)).1⟩
          have hI' : I mem' := by
            refine V.tables _ _ (fun c hc => ?_) hk
            rw [hmem]
            refine (storeAll_other _ _ _ _ _ fun i hi he => ?_).symm
            subst he
            exact hsep i _ (by omega) (hb i hi) hc
          obtain ⟨hi, k, at_, h1, h2, h3, h4, h5, h6, h7, h8⟩ := ih _ _ _ _ _ _ _ hI' (fun i c hi hc => by
            rw [ofNat_add_addr] at hc
            exact hsep (n + i) c (by omega) hc) hrec
          refine ⟨fun e he => hi e (by split <;> simp [he]), n + k, fun i => if i < n then cellf i else at_ (i - n), by omega, by omega, ?_, ?_,
            by rw [h5]; omega, ?_, ?_, ?_⟩
          · intro i hi
            by_cases hin : i < n
            · simp only [hin, if_true]
              exact hb i hin
            · simp only [hin, if_false]
              have := h3 (i - n) (by omega)
              rw [ofNat_add_addr] at this
              rwa [show n + (i - n) = i by omega] at this
          · intro c hc
            rw [storeAll_add, h4 c hc, hmem]
            have e1 : storeAll mem (fun i => if i < n then cellf i else at_ (i - n)) src.byte n = storeAll mem cellf src.byte n :=
              storeAll_congr _ (fun i hi => by simp [hi])
            rw [e1]
            have e2 : storeAll (storeAll mem cellf src.byte n) (fun i => if n + i < n then cellf (n + i) else at_ (n + i - n)) (fun i => src.byte (n + i)) k
                = storeAll (storeAll mem cellf src.byte n) at_ (src.advance n).byte k :=
              storeAll_congr _ (fun i hi => by
                simp only [show ¬ (n + i < n) by omega, if_false, byte_advance, show n + i - n = i by omega, and_self])
            rw [e2]
            exact storeAll_cell _ _ _ _ (storeAll_cell _ _ _ _ (ho c hc))
          · intro i p hik hp
            by_cases hin : i < n
            · have := V.paged _ _ _ i hpg (by omega)
              rw [this] at hp
              cases hp
              exact ⟨(phys, n), hi _ (by simp), i, hin, rfl⟩
            · refine h6 (i - n) p (by omega) ?_
              rw [ofNat_add_addr]
              rwa [show n + (i - n) = i by omega]
          · intro hst
            have := h7 hst
            rwa [ofNat_add_addr] at this
          · intro hst
            have := h8 hst
            rw [ofNat_add_addr] at this
            rwa [show left - n - k = left - (n + k) by omega] at this
        cases ht : target s ramSize fuel phys n with
        | ram i =>
          rw [ht] at h go
          exact go _ _ (fun k _ => rfl) (poke_eq _ _ _ _) h
        | rom p i =>
          rw [ht] at h go
          exact go _ _ (fun k _ => rfl) (storeAll_rom _ _ _ _ _).symm h
        | fail =>
          rw [ht] at h
          cases h
          refine ⟨fun e he => by dsimp only; split <;> simp [he], 0, fun _ => .ram 0, rfl, by omega, by simp, ho, ⟨fun h => (by cases h), fun h => absurd h.symm hl⟩,
            by simp, fun h => (by cases h), ?_⟩
          intro _
          refine ⟨phys, isCode, by simpa using hpg, ?_⟩
          have := target_fail G c1 c3' ht
          simpa [hn] using this
        | ub => rw [ht] at h; cases h
        | hangs => rw [ht] at h; cases h

/-- **C12, virtual writes and fills**: whenever mem_write_block_virt / mem_fill_block_virt returns, its effect is that of storing the
first actual_size source bytes one after the other behind the consecutive virtual addresses and nothing else outside the page
tables; bytes on pages that may hold translated code were reported to the code cache; success iff actual_size is the requested
size; it stopped with a guest exception at the first page that is not mapped, or with an internal error at the first page chunk that
does not lie in (and forward into) a single ram or rom region.  For ranges that do not contain the page tables themselves. -/
theorem C12_write_virt_partial (s : Space) (G : Good s) (B : AliasesBelowTop s) (ramSize fuel : Nat) (tr : Mem → Addr → Option (Addr × Bool) × Mem)
    (I : Mem → Prop) (T : Cell → Prop) (pg : Addr → Option (Addr × Bool)) (V : Translates tr I T pg)
    (addr : Addr) (size : Nat) (src : Src) (mem : Mem) (hI : I mem)
    (hsep : ∀ i c, i < size → VBackedBy s pg (addr + BitVec.ofNat 32 i) c → ¬ T c)
    (res : WriteRes) (h : writeBlock s ramSize fuel tr addr size src mem = .ret res) :
    res.actual ≤ size ∧ (res.status = .success ↔ res.actual = size) ∧
    (∃ at_ : Nat → Cell, (∀ i, i < res.actual → VBackedBy s pg (addr + BitVec.ofNat 32 i) (at_ i)) ∧
      ∀ c, ¬ T c → res.mem c = storeAll mem at_ src.byte res.actual c) ∧
    (∀ i p, i < res.actual → pg (addr + BitVec.ofNat 32 i) = some (p, true) → ∃ e ∈ res.invs, ∃ d, d < e.2 ∧ p = e.1 + BitVec.ofNat 32 d) ∧
    (res.status = .guestExp → pg (addr + BitVec.ofNat 32 res.actual) = none) ∧
    (res.status = .internalError → ∃ p f, pg (addr + BitVec.ofNat 32 res.actual) = some (p, f) ∧
      ¬ ChunkOk s p (chunk (addr + BitVec.ofNat 32 res.actual) (size - res.actual))) := by
  obtain ⟨-, k, at_, h1, h2, h3, h4, h5, h6, h7, h8⟩ := vwriteLoop_spec G B V _ _ _ _ _ _ _ _ hI hsep h
  simp only [Nat.zero_add] at h1
  rw [h1]
  exact ⟨h2, h5, ⟨at_, h3, h4⟩, h6, h7, h8⟩

/-! ### a case -/

/-- A page table of two entries in one byte: virtual page 1 is at 0x2000 and may hold code, page 2 is at 0x5000; bit 0 of the byte is
the present bit and bit 5 the accessed bit. -/
def exPg (a : Addr) : Option (Addr × Bool) :=
  if a.toNat / 4096 = 1 then some (a + 0x1000#32, true) else if a.toNat / 4096 = 2 then some (a + 0x3000#32, false) else none

def exTr : Mem → Addr → Option (Addr × Bool) × Mem := fun m a =>
  if (m (.ram 0x100)).getLsbD 0 = true ∧ exPg a ≠ none then (exPg a, fun c => if c = .ram 0x100 then m c ||| 0x20#8 else m c) else (none, m)

theorem exTr_translates : Translates exTr (fun m => (m (.ram 0x100)).getLsbD 0 = true) (fun c => c = .ram 0x100) exPg where
  same m a h := by
    unfold exTr
    split
    · rfl
    · next h' => exact (Classical.not_not.1 fun hn => h' ⟨h, fun e => hn e.symm⟩)
  keeps m a h := by
    unfold exTr
    split
    · simp only [if_true, BitVec.getLsbD_or, h, Bool.true_or]
    · exact h
  only m a c hc := by
    unfold exTr
    split
    · simp only [hc, if_false]
    · rfl
  tables m m' h hm := by rw [← h _ rfl]; exact hm
  offset a p f h := by
    have := addr_lt a
    unfold exPg at h
    split at h
    · rw [Option.some.injEq, Prod.mk.injEq] at h; obtain ⟨rfl, rfl⟩ := h; rw [BitVec.toNat_add, show (0x1000#32).toNat = 4096 from rfl]; omega
    · split at h
      · rw [Option.some.injEq, Prod.mk.injEq] at h; obtain ⟨rfl, rfl⟩ := h; rw [BitVec.toNat_add, show (0x3000#32).toNat = 12288 from rfl]; omega
      · cases h
  paged a p f k h hk := by
    have ha := addr_lt a
    have e : (a + BitVec.ofNat 32 k).toNat / 4096 = a.toNat / 4096 := by
      unfold exPg at h
      rw [BitVec.toNat_add, BitVec.toNat_ofNat]
      omega
    unfold exPg at h ⊢
    rw [e]
    split at h
    · rw [Option.some.injEq, Prod.mk.injEq] at h; obtain ⟨rfl, rfl⟩ := h; rw [if_pos ‹_›, Option.some.injEq, Prod.mk.injEq]; exact ⟨by ac_rfl, rfl⟩
    · split at h
      · rw [Option.some.injEq, Prod.mk.injEq] at h; obtain ⟨rfl, rfl⟩ := h; rw [if_neg ‹_›, if_pos ‹_›, Option.some.injEq, Prod.mk.injEq]; exact ⟨by ac_rfl, rfl⟩
      · cases h

/-- A write of three bytes across the two pages, and one that runs into the page that is not mapped: the hypotheses are met (the page
table is not in the range) and the second stops with a guest exception after one byte, with the accessed bit set. -/
example : ∃ w v rd, writeBlock exMap 0x10010 4 exTr 0x1FFF 3 (.buffer [1, 2, 3]) (fun _ => 1) = .ret w ∧ w.status = .success ∧
    w.mem (.ram 0x2FFF) = 1 ∧ w.mem (.ram 0x5000) = 2 ∧ w.mem (.ram 0x5001) = 3 ∧ w.mem (.ram 0x100) = 0x21 ∧ w.invs = [(0x2FFF#32, 1)] ∧
    writeBlock exMap 0x10010 4 exTr 0x2FFF 3 (.fill 7) (fun _ => 1) = .ret v ∧ v.status = .guestExp ∧ v.actual = 1 ∧ v.mem (.ram 0x5FFF) = 7 ∧
    readBlock exMap 0x10010 4 (fun m a => ((exTr m a).1.map Prod.fst, (exTr m a).2)) 0x2FFE 3 v.mem = .ret rd ∧ rd.status = .guestExp ∧
    rd.actual = 2 ∧ rd.out = [1, 7] :=
  ⟨_, _, _, rfl, rfl, rfl, rfl, rfl, rfl, rfl, rfl, rfl, rfl, rfl, rfl, rfl, rfl, rfl⟩

theorem exTr_reads : Translates (noFlag fun m a => ((exTr m a).1.map Prod.fst, (exTr m a).2)) (fun m => (m (.ram 0x100)).getLsbD 0 = true)
    (fun c => c = .ram 0x100) (fun a => (exPg a).map fun p => (p.1, false)) where
  same m a h := by
    have := exTr_translates.same m a h
    simp only [noFlag, this, Option.map_map]
    rfl
  keeps m a h := exTr_translates.keeps m a h
  only m a c hc := exTr_translates.only m a c hc
  tables := exTr_translates.tables
  offset a p f h := by
    rw [Option.map_eq_some_iff] at h
    obtain ⟨q, hq, e⟩ := h
    cases e
    exact exTr_translates.offset a q.1 q.2 hq
  paged a p f k h hk := by
    rw [Option.map_eq_some_iff] at h
    obtain ⟨q, hq, e⟩ := h
    cases e
    rw [exTr_translates.paged a q.1 q.2 k hq hk]
    rfl

end Verif.Block
