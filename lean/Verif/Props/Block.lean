/-
C11 (write then read), C12 (actual_size), C13 (rom), C14 (fill = constant write).
-/
import Verif.Lemmas.Block

namespace Verif.Block
open Verif.AS Verif.AS.Spec Verif.Block.Spec Verif.Region

theorem ofNat_add_addr (a : Addr) (m n : Nat) : a + BitVec.ofNat 32 m + BitVec.ofNat 32 n = a + BitVec.ofNat 32 (m + n) := by
  rw [BitVec.ofNat_add]; grind

theorem peek_length (mem : Mem) (c : Nat → Cell) (n : Nat) : (peek mem c n).length = n := by simp [peek]
theorem peek_get (mem : Mem) (c : Nat → Cell) (n i : Nat) (h : i < n) : (peek mem c n)[i]? = some (mem (c i)) := by
  simp [peek, h]

theorem readLoop_spec {s : Space} (G : Good s) (B : AliasesBelowTop s) {ramSize fuel : Nat} : ∀ (it : Nat) (addr : Addr) (left vec : Nat)
    (out : List Byte) (mem : Mem) (res : ReadRes), readLoop s ramSize fuel physR it addr left vec out mem = .ret res →
    ∃ k l, res.actual = vec + k ∧ k ≤ left ∧ res.out = out ++ l ∧ l.length = k ∧ res.mem = mem ∧
      (res.status = .success ↔ k = left) ∧ (res.status = .success ∨ res.status = .internalError) ∧
      (∀ i, i < k → ∃ c, BackedBy s (addr + BitVec.ofNat 32 i) c ∧ l[i]? = some (mem c)) ∧
      (res.status ≠ .success → ¬ ChunkOk s (addr + BitVec.ofNat 32 k) (chunk (addr + BitVec.ofNat 32 k) (left - k))) := by
  intro it
  have base : ∀ (addr : Addr) (left vec : Nat) (out : List Byte) (mem : Mem) (res : ReadRes), left = 0 →
      (Outcome.ret ⟨.success, vec, out, mem⟩ : Outcome ReadRes) = .ret res →
      ∃ k l, res.actual = vec + k ∧ k ≤ left ∧ res.out = out ++ l ∧ l.length = k ∧ res.mem = mem ∧
      (res.status = .success ↔ k = left) ∧ (res.status = .success ∨ res.status = .internalError) ∧
      (∀ i, i < k → ∃ c, BackedBy s (addr + BitVec.ofNat 32 i) c ∧ l[i]? = some (mem c)) ∧
      (res.status ≠ .success → ¬ ChunkOk s (addr + BitVec.ofNat 32 k) (chunk (addr + BitVec.ofNat 32 k) (left - k))) := by
    intro addr left vec out mem res hl h
    cases h
    exact ⟨0, [], rfl, by omega, by simp, rfl, rfl, by simp [hl], by simp, by simp, by simp⟩
  induction it with
  | zero =>
    intro addr left vec out mem res h
    unfold readLoop at h
    split at h
    · next hl => exact base _ _ _ _ _ _ hl h
    · cases h
  | succ it ih =>
    intro addr left vec out mem res h
    unfold readLoop at h
    split at h
    · next hl => exact base _ _ _ _ _ _ hl h
    · next hl =>
      obtain ⟨c1, c2, c3⟩ := chunk_pos (a := addr) hl
      simp only [physR] at h
      generalize hn : chunk addr left = n at h c1 c2 c3
      have go : ∀ cellf : Nat → Cell, (∀ k, k < n → (target s ramSize fuel addr n).cell k = some (cellf k)) →
          readLoop s ramSize fuel physR it (addr + BitVec.ofNat 32 n) (left - n) (vec + n) (out ++ peek mem cellf n) mem = .ret res →
          ∃ k l, res.actual = vec + k ∧ k ≤ left ∧ res.out = out ++ l ∧ l.length = k ∧ res.mem = mem ∧
          (res.status = .success ↔ k = left) ∧ (res.status = .success ∨ res.status = .internalError) ∧
          (∀ i, i < k → ∃ c, BackedBy s (addr + BitVec.ofNat 32 i) c ∧ l[i]? = some (mem c)) ∧
          (res.status ≠ .success → ¬ ChunkOk s (addr + BitVec.ofNat 32 k) (chunk (addr + BitVec.ofNat 32 k) (left - k))) := by
        intro cellf hcell hrec
        obtain ⟨k, l, h1, h2, h3, h4, h5, h6, h7, h8, h9⟩ := ih _ _ _ _ _ _ hrec
        refine ⟨n + k, peek mem cellf n ++ l, by omega, by omega, by rw [h3, List.append_assoc], by simp [peek_length, h4], h5,
          by rw [h6]; omega, h7, ?_, ?_⟩
        · intro i hi
          by_cases hin : i < n
          · refine ⟨cellf i, (target_ok G B c1 c3 hin (hcell i hin)).1, ?_⟩
            rw [List.getElem?_append_left (by rw [peek_length]; exact hin), peek_get _ _ _ _ hin]
          · obtain ⟨c, hc, hl'⟩ := h8 (i - n) (by omega)
            refine ⟨c, ?_, ?_⟩
            · rw [ofNat_add_addr] at hc
              rwa [show n + (i - n) = i by omega] at hc
            · rw [List.getElem?_append_right (by rw [peek_length]; omega), peek_length]
              exact hl'
        · intro hst
          have := h9 hst
          rw [ofNat_add_addr] at this
          rwa [show left - n - k = left - (n + k) by omega] at this
      cases ht : target s ramSize fuel addr n with
      | ram i =>
        rw [ht] at h go
        exact go _ (fun k _ => rfl) h
      | rom p i =>
        rw [ht] at h go
        exact go _ (fun k _ => rfl) h
      | fail =>
        rw [ht] at h
        cases h
        refine ⟨0, [], rfl, by omega, by simp, rfl, rfl, ⟨fun h => (by cases h), fun h => absurd h.symm hl⟩, by simp, by simp, ?_⟩
        intro _
        have := target_fail G c1 c3 ht
        simpa [hn] using this
      | ub => rw [ht] at h; cases h
      | hangs => rw [ht] at h; cases h

/-- **C12, reads**: whenever mem_read_block_phys returns, actual_size is the number of bytes delivered; success iff it is the
requested size; each delivered byte is the byte backing that address; a failing call stopped at the first page chunk that
does not lie in (and forward into) a single ram or rom region; memory is not changed.  For maps built by the region api (`Good`)
in which no alias points to the last page below 4 GiB, where the code reads past the region (`C12_overread_violation`). -/
theorem C12_read_actual_size_partial (s : Space) (G : Good s) (B : AliasesBelowTop s) (ramSize fuel : Nat) (addr : Addr) (size : Nat) (mem : Mem)
    (res : ReadRes) (h : readBlock s ramSize fuel physR addr size mem = .ret res) :
    res.actual ≤ size ∧ res.out.length = res.actual ∧ (res.status = .success ↔ res.actual = size) ∧ res.mem = mem ∧
    (∀ i, i < res.actual → ∃ c, BackedBy s (addr + BitVec.ofNat 32 i) c ∧ res.out[i]? = some (mem c)) ∧
    (res.status ≠ .success → res.status = .internalError ∧
      ¬ ChunkOk s (addr + BitVec.ofNat 32 res.actual) (chunk (addr + BitVec.ofNat 32 res.actual) (size - res.actual))) := by
  obtain ⟨k, l, h1, h2, h3, h4, h5, h6, h7, h8, h9⟩ := readLoop_spec G B _ _ _ _ _ _ _ h
  simp only [Nat.zero_add, List.nil_append] at h1 h3
  rw [h1, h3]
  exact ⟨h2, h4, h6, h5, h8, fun h => ⟨h7.resolve_left h, h9 h⟩⟩

/-! ### writes -/

theorem storeAll_add (mem : Mem) (at_ : Nat → Cell) (v : Nat → Byte) (n k : Nat) :
    storeAll mem at_ v (n + k) = storeAll (storeAll mem at_ v n) (fun i => at_ (n + i)) (fun i => v (n + i)) k := by
  induction k with
  | zero => rfl
  | succ k ih =>
    show store (storeAll mem at_ v (n + k)) (at_ (n + k)) (v (n + k)) = _
    rw [ih]
    rfl

theorem storeAll_congr (mem : Mem) {at_ at' : Nat → Cell} {v v' : Nat → Byte} {n : Nat} (h : ∀ i, i < n → at_ i = at' i ∧ v i = v' i) :
    storeAll mem at_ v n = storeAll mem at' v' n := by
  induction n with
  | zero => rfl
  | succ n ih => simp only [storeAll]; rw [ih (fun i hi => h i (by omega)), (h n (by omega)).1, (h n (by omega)).2]

theorem poke_eq (mem : Mem) (i n : Nat) (b : Nat → Byte) : poke mem i n b = storeAll mem (fun k => .ram (i + k)) b n := by
  induction n with
  | zero =>
    funext c
    cases c with
    | ram j => simp only [poke, storeAll]; rw [if_neg (by omega)]
    | rom p j => rfl
  | succ n ih =>
    simp only [storeAll, ← ih]
    funext c
    cases c with
    | ram j =>
      simp only [poke, store, Cell.ram.injEq]
      by_cases h1 : j = i + n
      · rw [if_pos h1, if_pos (by omega)]; congr 1; omega
      · rw [if_neg h1]
        by_cases h2 : i ≤ j ∧ j < i + n
        · rw [if_pos h2, if_pos (by omega)]
        · rw [if_neg h2, if_neg (by omega)]
    | rom p j => simp [poke, store]

theorem storeAll_rom (mem : Mem) (p i n : Nat) (v : Nat → Byte) : storeAll mem (fun k => .rom p (i + k)) v n = mem := by
  induction n with
  | zero => rfl
  | succ n ih => simp only [storeAll, store, ih]

theorem byte_advance (src : Src) (n i : Nat) : (src.advance n).byte i = src.byte (n + i) := by
  cases src with
  | buffer l => simp [Src.advance, Src.byte, List.getD_eq_getElem?_getD]
  | fill v => rfl

/-- What a write did. -/
def WriteOk (s : Space) (addr : Addr) (left tot : Nat) (v : Nat → Byte) (mem : Mem) (res : WriteRes) : Prop :=
  ∃ k at_, res.actual = tot + k ∧ k ≤ left ∧ (∀ i, i < k → BackedBy s (addr + BitVec.ofNat 32 i) (at_ i)) ∧
    res.mem = storeAll mem at_ v k ∧ (res.status = .success ↔ k = left) ∧
    (res.status = .success ∨ res.status = .internalError) ∧
    (∀ i, i < k → ∃ e ∈ res.invs, ∃ d, d < e.2 ∧ addr + BitVec.ofNat 32 i = e.1 + BitVec.ofNat 32 d) ∧
    (res.status ≠ .success → ¬ ChunkOk s (addr + BitVec.ofNat 32 k) (chunk (addr + BitVec.ofNat 32 k) (left - k)))

theorem writeLoop_spec {s : Space} (G : Good s) (B : AliasesBelowTop s) {ramSize fuel : Nat} : ∀ (it : Nat) (addr : Addr) (left tot : Nat)
    (src : Src) (mem : Mem) (invs : List (Addr × Nat)) (res : WriteRes),
    writeLoop s ramSize fuel physW it addr left tot src mem invs = .ret res →
    (∀ e ∈ invs, e ∈ res.invs) ∧ WriteOk s addr left tot src.byte mem res := by
  intro it
  have base : ∀ (addr : Addr) (left tot : Nat) (src : Src) (mem : Mem) (invs : List (Addr × Nat)) (res : WriteRes), left = 0 →
      (Outcome.ret ⟨.success, tot, mem, invs⟩ : Outcome WriteRes) = .ret res →
      (∀ e ∈ invs, e ∈ res.invs) ∧ WriteOk s addr left tot src.byte mem res := by
    intro addr left tot src mem invs res hl h
    cases h
    exact ⟨fun _ h => h, 0, fun _ => .ram 0, rfl, by omega, by simp, rfl, by simp [hl], by simp, by simp, by simp⟩
  induction it with
  | zero =>
    intro addr left tot src mem invs res h
    unfold writeLoop at h
    split at h
    · next hl => exact base _ _ _ _ _ _ _ hl h
    · cases h
  | succ it ih =>
    intro addr left tot src mem invs res h
    unfold writeLoop at h
    split at h
    · next hl => exact base _ _ _ _ _ _ _ hl h
    · next hl =>
      obtain ⟨c1, c2, c3⟩ := chunk_pos (a := addr) hl
      simp only [physW, if_true] at h
      generalize hn : chunk addr left = n at h c1 c2 c3
      have go : ∀ (cellf : Nat → Cell) (mem' : Mem), (∀ k, k < n → (target s ramSize fuel addr n).cell k = some (cellf k)) →
          mem' = storeAll mem cellf src.byte n →
          writeLoop s ramSize fuel physW it (addr + BitVec.ofNat 32 n) (left - n) (tot + n) (src.advance n) mem' (invs ++ [(addr, n)]) = .ret res →
          (∀ e ∈ invs, e ∈ res.invs) ∧ WriteOk s addr left tot src.byte mem res := by
        intro cellf mem' hcell hmem hrec
        obtain ⟨hi, k, at_, h1, h2, h3, h4, h5, h6, h7, h8⟩ := ih _ _ _ _ _ _ _ hrec
        refine ⟨fun e he => hi e (by simp [he]), n + k, fun i => if i < n then cellf i else at_ (i - n), by omega, by omega, ?_, ?_,
          by rw [h5]; omega, h6, ?_, ?_⟩
        · intro i hi
          by_cases hin : i < n
          · simp only [hin, if_true]
            exact (target_ok G B c1 c3 hin (hcell i hin)).1
          · simp only [hin, if_false]
            have := h3 (i - n) (by omega)
            rw [ofNat_add_addr] at this
            rwa [show n + (i - n) = i by omega] at this
        · rw [storeAll_add, h4, hmem]
          have e1 : storeAll mem (fun i => if i < n then cellf i else at_ (i - n)) src.byte n = storeAll mem cellf src.byte n :=
            storeAll_congr _ (fun i hi => by simp [hi])
          rw [e1]
          exact storeAll_congr _ (fun i hi => by
            simp only [show ¬ (n + i < n) by omega, if_false, byte_advance, show n + i - n = i by omega, and_self])
        · intro i hik
          by_cases hin : i < n
          · exact ⟨(addr, n), hi _ (by simp), i, hin, rfl⟩
          · obtain ⟨e, he, d, hd, heq⟩ := h7 (i - n) (by omega)
            refine ⟨e, he, d, hd, ?_⟩
            rw [ofNat_add_addr] at heq
            rwa [show n + (i - n) = i by omega] at heq
        · intro hst
          have := h8 hst
          rw [ofNat_add_addr] at this
          rwa [show left - n - k = left - (n + k) by omega] at this
      cases ht : target s ramSize fuel addr n with
      | ram i =>
        rw [ht] at h go
        exact go _ _ (fun k _ => rfl) (poke_eq _ _ _ _) h
      | rom p i =>
        rw [ht] at h go
        exact go _ _ (fun k _ => rfl) (storeAll_rom _ _ _ _ _).symm h
      | fail =>
        rw [ht] at h
        cases h
        refine ⟨fun e he => by simp [he], 0, fun _ => .ram 0, rfl, by omega, by simp, rfl, ⟨fun h => (by cases h), fun h => absurd h.symm hl⟩, by simp, by simp, ?_⟩
        intro _
        have := target_fail G c1 c3 ht
        simpa [hn] using this
      | ub => rw [ht] at h; cases h
      | hangs => rw [ht] at h; cases h

/-- **C12, writes and fills**: whenever mem_write_block_phys / mem_fill_block_phys returns, its effect is that of storing the
first actual_size source bytes one after the other at the bytes backing the consecutive addresses (rom ignores the store) and
nothing else; success iff actual_size is the requested size; otherwise it stopped at the first page chunk that does not lie in
(and forward into) a single ram or rom region. -/
theorem C12_write_actual_size_partial (s : Space) (G : Good s) (B : AliasesBelowTop s) (ramSize fuel : Nat) (addr : Addr) (size : Nat) (src : Src) (mem : Mem)
    (res : WriteRes) (h : writeBlock s ramSize fuel physW addr size src mem = .ret res) :
    res.actual ≤ size ∧ (res.status = .success ↔ res.actual = size) ∧
    (∃ at_ : Nat → Cell, (∀ i, i < res.actual → BackedBy s (addr + BitVec.ofNat 32 i) (at_ i)) ∧ res.mem = storeAll mem at_ src.byte res.actual) ∧
    (res.status ≠ .success → res.status = .internalError ∧
      ¬ ChunkOk s (addr + BitVec.ofNat 32 res.actual) (chunk (addr + BitVec.ofNat 32 res.actual) (size - res.actual))) := by
  obtain ⟨-, k, at_, h1, h2, h3, h4, h5, h6, h7, h8⟩ := writeLoop_spec G B _ _ _ _ _ _ _ _ h
  simp only [Nat.zero_add] at h1
  rw [h1]
  exact ⟨h2, h5, ⟨at_, h3, h4⟩, fun h => ⟨h6.resolve_left h, h8 h⟩⟩

/-! ### C11 -/

theorem storeAll_other (mem : Mem) (at_ : Nat → Cell) (v : Nat → Byte) (n : Nat) (c : Cell) (h : ∀ i, i < n → at_ i ≠ c) :
    storeAll mem at_ v n c = mem c := by
  induction n with
  | zero => rfl
  | succ n ih =>
    simp only [storeAll]
    have h1 := h n (by omega)
    cases ha : at_ n with
    | ram i =>
      simp only [store]
      rw [if_neg (fun hc => h1 (by rw [ha, hc]))]
      exact ih (fun i hi => h i (by omega))
    | rom p i => exact ih (fun i hi => h i (by omega))

theorem storeAll_at (mem : Mem) (at_ : Nat → Cell) (v : Nat → Byte) (n i j : Nat) (hi : i < n) (ha : at_ i = .ram j)
    (hd : ∀ k, k < n → at_ k = at_ i → k = i) : storeAll mem at_ v n (.ram j) = v i := by
  induction n with
  | zero => omega
  | succ n ih =>
    simp only [storeAll]
    by_cases hn : i = n
    · subst hn
      rw [ha]; simp [store]
    · have hne : at_ n ≠ .ram j := fun h => hn ((hd n (by omega) (by rw [h, ha])).symm)
      cases hc : at_ n with
      | ram x =>
        simp only [store]
        rw [if_neg (fun h => hne (by rw [hc, ← h]))]
        exact ih (by omega) (fun k hk => hd k (by omega))
      | rom p x => exact ih (by omega) (fun k hk => hd k (by omega))

/-- A successful write makes a read of the same range return with success, whatever the contents. -/
theorem read_succeeds {s : Space} {ramSize fuel : Nat} : ∀ (it : Nat) (addr : Addr) (left tot : Nat) (src : Src) (mem : Mem)
    (invs : List (Addr × Nat)) (w : WriteRes), writeLoop s ramSize fuel physW it addr left tot src mem invs = .ret w → w.status = .success →
    ∀ vec out mem', ∃ res, readLoop s ramSize fuel physR it addr left vec out mem' = .ret res ∧ res.status = .success := by
  intro it
  induction it with
  | zero =>
    intro addr left tot src mem invs w h hs vec out mem'
    unfold writeLoop at h
    unfold readLoop
    split at h
    · next hl => rw [if_pos hl]; exact ⟨_, rfl, rfl⟩
    · cases h
  | succ it ih =>
    intro addr left tot src mem invs w h hs vec out mem'
    unfold writeLoop at h
    unfold readLoop
    split at h
    · next hl => rw [if_pos hl]; exact ⟨_, rfl, rfl⟩
    · next hl =>
      rw [if_neg hl]
      simp only [physW, if_true] at h
      simp only [physR]
      cases ht : target s ramSize fuel addr (chunk addr left) with
      | ram i => rw [ht] at h; exact ih _ _ _ _ _ _ _ h hs _ _ _
      | rom p i => rw [ht] at h; exact ih _ _ _ _ _ _ _ h hs _ _ _
      | fail => rw [ht] at h; cases h; cases hs
      | ub => rw [ht] at h; cases h
      | hangs => rw [ht] at h; cases h

/-- **C11**: after a successful mem_write_block_phys over ram in which no two addresses share a host byte, mem_read_block_phys
of the same range succeeds and returns the written bytes; host bytes that back no address of the range are unchanged.
Missing: ranges in which two addresses share a host byte — the code gives all ram regions the same backing, see
`C11_ram_regions_share_bytes_violation`; and aliases to the last page. -/
theorem C11_write_read_partial (s : Space) (G : Good s) (B : AliasesBelowTop s) (ramSize fuel : Nat) (addr : Addr) (bytes : List Byte) (mem : Mem)
    (w : WriteRes) (h : writeBlock s ramSize fuel physW addr bytes.length (.buffer bytes) mem = .ret w) (hs : w.status = .success)
    (hram : ∀ i c, i < bytes.length → BackedBy s (addr + BitVec.ofNat 32 i) c → ∃ j, c = .ram j)
    (hinj : ∀ i j c, i < bytes.length → j < bytes.length → BackedBy s (addr + BitVec.ofNat 32 i) c → BackedBy s (addr + BitVec.ofNat 32 j) c → i = j) :
    (∃ r, readBlock s ramSize fuel physR addr bytes.length w.mem = .ret r ∧ r.status = .success ∧ r.out = bytes) ∧
    (∀ c, (∀ i, i < bytes.length → ¬ BackedBy s (addr + BitVec.ofNat 32 i) c) → w.mem c = mem c) := by
  obtain ⟨-, h5, ⟨at_, h3, h4⟩, -⟩ := C12_write_actual_size_partial s G B _ _ _ _ _ _ _ h
  have hk := h5.1 hs
  rw [hk] at h3 h4
  constructor
  · obtain ⟨r, hr, hrs⟩ := read_succeeds _ _ _ _ _ _ _ _ h hs 0 [] w.mem
    refine ⟨r, hr, hrs, ?_⟩
    obtain ⟨-, g2, g3, -, g5, -⟩ := C12_read_actual_size_partial s G B _ _ _ _ _ _ hr
    have hk2 := g3.1 hrs
    apply List.ext_getElem?
    intro i
    by_cases hi : i < bytes.length
    · obtain ⟨c, hc, hout⟩ := g5 i (by omega)
      rw [hout]
      obtain rfl := backedBy_det hc (h3 i hi)
      obtain ⟨j, hj⟩ := hram i _ hi hc
      have hv : w.mem (.ram j) = (Src.buffer bytes).byte i := by
        rw [h4]
        exact storeAll_at _ _ _ _ _ _ hi hj (fun k hk' he => hinj k i (at_ i) hk' hi (he ▸ h3 k hk') hc)
      rw [hj, hv]
      simp [Src.byte, List.getD_eq_getElem?_getD, hi]
    · rw [List.getElem?_eq_none (by omega), List.getElem?_eq_none (by omega)]
  · intro c hc
    rw [h4]
    exact storeAll_other _ _ _ _ _ (fun i hi he => hc i hi (he ▸ h3 i hi))

/-- A write that lies in one ram region succeeds. -/
theorem write_ram_succeeds {s : Space} (G : Good s) {ramSize fuel : Nat} (n : Node) (hn : n ∈ s.nodes)
    (hty : n.reg.type = .ram) (hsz : n.reg.stop < n.reg.buffOff + ramSize) :
    ∀ (it left tot : Nat) (a : Addr) (src : Src) (mem : Mem) (invs : List (Addr × Nat)), left ≤ it →
      (left = 0 ∨ (n.reg.start ≤ a.toNat ∧ a.toNat + left ≤ n.reg.stop + 1)) →
      ∃ res, writeLoop s ramSize (fuel + 1) physW it a left tot src mem invs = .ret res ∧ res.status = .success := by
  have hmax : n.reg.stop ≤ 4294967295 := by have := G.tiled.leMax n hn; rw [G.max] at this; exact this
  have hbuf := G.buff n hn (by simp [hty])
  intro it
  induction it with
  | zero =>
    intro left tot a src mem invs hle _
    unfold writeLoop
    rw [if_pos (by omega)]
    exact ⟨_, rfl, rfl⟩
  | succ it ih =>
    intro left tot a src mem invs hle h2
    unfold writeLoop
    by_cases hl : left = 0
    · rw [if_pos hl]; exact ⟨_, rfl, rfl⟩
    · rw [if_neg hl]
      obtain ⟨c1, c2, c3⟩ := chunk_pos (a := a) hl
      obtain ⟨h1, h2⟩ := h2.resolve_left hl
      have ht : target s ramSize (fuel + 1) a (chunk a left) = .ram (a - BitVec.ofNat 32 n.reg.buffOff).toNat := by
        unfold target
        rw [G.tiled.search_of_mem hn ⟨h1, by omega⟩]
        simp only [resolve, hty]
        rw [noWrap (by omega) c1, if_pos ⟨h1, by omega⟩, if_pos]
        rw [toNat_sub_le (by omega)]
        omega
      simp only [physW, if_true, ht]
      exact ih (left - chunk a left) (tot + chunk a left) (a + BitVec.ofNat 32 (chunk a left)) (src.advance (chunk a left)) _ (invs ++ [(a, chunk a left)]) (by omega)
        (by
          by_cases hd : left - chunk a left = 0
          · exact Or.inl hd
          · have hw : a.toNat + chunk a left < 4294967296 := by omega
            exact Or.inr ⟨by rw [toNat_add_small hw]; omega, by rw [toNat_add_small hw]; omega⟩)

/-- **C11, one ram region**: writing any block that lies in one ram region (of any size, any alignment) succeeds, reading it back
succeeds and returns the block, and no host byte other than those behind the range changes.  No assumption on the outcome of
the calls. -/
theorem C11_one_region_partial (s : Space) (G : Good s) (B : AliasesBelowTop s) (ramSize fuel : Nat) (addr : Addr) (bytes : List Byte) (mem : Mem)
    (r : Region) (hr : ∃ n ∈ s.nodes, n.reg = r) (hty : r.type = .ram) (hsz : r.stop < r.buffOff + ramSize)
    (hlo : r.start ≤ addr.toNat) (hhi : addr.toNat + bytes.length ≤ r.stop + 1) :
    ∃ w rd, writeBlock s ramSize (fuel + 1) physW addr bytes.length (.buffer bytes) mem = .ret w ∧ w.status = .success ∧ w.actual = bytes.length ∧
      readBlock s ramSize (fuel + 1) physR addr bytes.length w.mem = .ret rd ∧ rd.status = .success ∧ rd.out = bytes ∧
      ∀ j, (j < addr.toNat - r.buffOff ∨ addr.toNat - r.buffOff + bytes.length ≤ j) → w.mem (.ram j) = mem (.ram j) := by
  obtain ⟨n, hn, rfl⟩ := hr
  have hmax : n.reg.stop ≤ 4294967295 := by have := G.tiled.leMax n hn; rw [G.max] at this; exact this
  have hbuf := G.buff n hn (by simp [hty])
  obtain ⟨w, hw, hws⟩ := write_ram_succeeds G n hn hty hsz (fuel := fuel) bytes.length bytes.length 0 addr (.buffer bytes) mem [] (Nat.le_refl _) (Or.inr ⟨hlo, hhi⟩)
  have hal : n.reg.aliased = none := by
    cases h5 : n.reg.aliased with
    | none => rfl
    | some o => exact absurd ((G.alias n hn).1.2 (by simp [h5])) (by simp [hty])
  have back : ∀ i c, i < bytes.length → BackedBy s (addr + BitVec.ofNat 32 i) c → c = .ram (addr.toNat - n.reg.buffOff + i) := by
    intro i c hi hc
    have e1 : (addr + BitVec.ofNat 32 i).toNat = addr.toNat + i := toNat_add_small (by omega)
    have hcn : Contains n.reg (addr + BitVec.ofNat 32 i).toNat := by rw [e1]; exact ⟨by omega, by omega⟩
    have hsr := G.tiled.search_of_mem hn hcn
    have hb : BackedBy s (addr + BitVec.ofNat 32 i) (.ram (addr + BitVec.ofNat 32 i - BitVec.ofNat 32 n.reg.buffOff).toNat) :=
      .ram hsr hcn (.here hal) hcn hty
    rw [backedBy_det hc hb, toNat_sub_le (by omega), e1]
    congr 1; omega
  have hact : w.actual = bytes.length := (C12_write_actual_size_partial s G B _ _ _ _ _ _ _ hw).2.1.1 hws
  obtain ⟨⟨rd, h1, h2, h3⟩, h4⟩ := C11_write_read_partial s G B ramSize (fuel + 1) addr bytes mem w hw hws
    (fun i c hi hc => ⟨_, back i c hi hc⟩)
    (fun i j c hi hj h1 h2 => by
      have e1 := back i c hi h1
      have e2 := back j c hj h2
      rw [e1] at e2
      simp only [Cell.ram.injEq] at e2
      omega)
  refine ⟨w, rd, hw, hws, hact, h1, h2, h3, ?_⟩
  intro j hj
  apply h4
  intro i hi hc
  have := back i _ hi hc
  simp only [Cell.ram.injEq] at this
  omega

/-- A map with ram, rom and an alias of ram ... -/
def exMap : Space :=
  { max := maxAddr, fresh := 5,
    nodes := [{ key := 0, oid := .own 0, reg := { start := 0, stop := 0xFFFF, type := .ram } },
      { key := 0x10000, oid := .own 1, reg := { start := 0x10000, stop := 0x10FFF, type := .rom, romPtr := 7, buffOff := 0x10000 } },
      { key := 0x11000, oid := .own 2, reg := { start := 0x11000, stop := 0x1FFFF } },
      { key := 0x20000, oid := .own 4, reg := { start := 0x20000, stop := 0x207FF, type := .alias, aliasOff := 0x1000, aliased := some (.own 0) } },
      { key := 0x20800, oid := .own 3, reg := { start := 0x20800, stop := 0xFFFFFFFF } }] }

/-- ... built by the api. -/
example : (Cpu.init.run [.ram 0 0x10000 false, .rom 0x10000 0x1000 (some 7) false, .alias 0x20000 0x1000 0x800 false]).map (·.mem) = some exMap := by
  decide

theorem exMap_good : Good exMap :=
  ⟨⟨by decide, by decide, by decide, by decide, by decide, by decide, by decide⟩, by decide, by unfold RegP AliasOk; decide, by decide⟩

theorem exMap_below : AliasesBelowTop exMap := by
  intro a r z b hr hty F
  obtain ⟨n, hn, rfl, hle⟩ := search_region exMap_good hr
  have : n = { key := 0x20000, oid := .own 4, reg := { start := 0x20000, stop := 0x207FF, type := .alias, aliasOff := 0x1000, aliased := some (.own 0) } } := by
    revert hty
    simp only [exMap, List.mem_cons, List.not_mem_nil, or_false] at hn
    rcases hn with rfl | rfl | rfl | rfl | rfl <;> simp
  subst this
  cases F with
  | here h => cases h
  | @next _ _ q _ _ h1 h2 h3 =>
    simp only [Option.some.injEq] at h1
    rw [← h1] at h2
    have h4 : findOid exMap.nodes (.own 0) = some { key := 0, oid := .own 0, reg := { start := 0, stop := 0xFFFF, type := .ram } } := by decide
    rw [h4] at h2
    cases h2
    obtain ⟨-, rfl⟩ := forwards_det h3 (.here rfl)
    obtain ⟨hle1, hle2⟩ := hle
    simp only at hle1 hle2
    simp only [BitVec.toNat_add, BitVec.toNat_sub, BitVec.toNat_ofNat]
    omega

/-- 3 bytes across a page boundary of the ram region of `exMap`, written through the theorem's hypotheses. -/
example : ∃ w rd, writeBlock exMap 0x10010 4 physW 0x1FFF 3 (.buffer [1, 2, 3]) (fun _ => 0) = .ret w ∧ w.status = .success ∧
    readBlock exMap 0x10010 4 physR 0x1FFF 3 w.mem = .ret rd ∧ rd.out = [1, 2, 3] := by
  obtain ⟨w, rd, h1, h2, -, h3, -, h4, -⟩ := C11_one_region_partial exMap exMap_good exMap_below 0x10010 3 0x1FFF [1, 2, 3] (fun _ => 0)
    { start := 0, stop := 0xFFFF, type := .ram } ⟨_, List.mem_cons_self, rfl⟩ rfl (by decide) (by decide) (by decide)
  exact ⟨w, rd, h1, h2, h3, h4⟩

/-- The alias of `exMap` reads the bytes of the original; a read leaving rom for unmapped memory fails with the exact length of
the delivered prefix. -/
example : ∃ w rd, writeBlock exMap 0x10010 4 physW 0x1000 2 (.buffer [8, 9]) (fun _ => 0) = .ret w ∧
    readBlock exMap 0x10010 4 physR 0x20000 2 w.mem = .ret rd ∧ rd.out = [8, 9] := ⟨_, _, rfl, rfl, rfl⟩
example : ∃ rd, readBlock exMap 0x10010 4 physR 0x10FFE 10 (fun _ => 5) = .ret rd ∧ rd.status = .internalError ∧
    rd.actual = 2 ∧ rd.out = [5, 5] := ⟨_, rfl, rfl, rfl, rfl⟩

/-- **C11 is violated by the code**: every ram region starts at the first byte of the ram buffer (buff_off_start = start), so two
ram regions share their bytes: the two byte block [1, 2] written across the boundary of two ram regions reads back as [2, 2]. -/
theorem C11_ram_regions_share_bytes_violation : ∃ c w rd, Cpu.init.run [.ram 0xFFF 1 false, .ram 0x1000 1 false] = some c ∧
    writeBlock c.mem 16 4 physW 0xFFF 2 (.buffer [1, 2]) (fun _ => 0) = .ret w ∧ w.status = .success ∧ w.actual = 2 ∧
    readBlock c.mem 16 4 physR 0xFFF 2 w.mem = .ret rd ∧ rd.status = .success ∧ rd.out = [2, 2] :=
  ⟨_, _, _, rfl, rfl, rfl, rfl, rfl, rfl, rfl⟩

/-- **C12 is violated by the code**: after an alias in a chain was replaced by a shorter one of the last 16 bytes below 4 GiB, the
bounds check `phys_addr + bytes - 1 <= end` wraps around and a 32 byte read of a 16 byte rom succeeds, delivering host bytes
beyond the client's rom buffer. -/
theorem C12_overread_violation : ∃ c rd, Cpu.init.run [.ram 0x10000 0x1000 false, .rom 0xFFFFFFF0 16 (some 7) false,
      .alias 0x20000 0x10000 0x1000 false, .alias 0x30000 0x20000 0x1000 false, .alias 0x20000 0xFFFFFFF0 16 false] = some c ∧
    readBlock c.mem 0x1010 5 physR 0x30000 32 (fun | .rom 7 i => if i < 16 then 1 else 0xEE | _ => 0) = .ret rd ∧ rd.status = .success ∧
    rd.actual = 32 ∧ rd.out[16]? = some 0xEE :=
  ⟨_, _, rfl, rfl, rfl, rfl, rfl⟩

/-! ### C13 -/

theorem writeLoop_rom {s : Space} {ramSize fuel : Nat} {tr : Mem → Addr → Option (Addr × Bool) × Mem}
    (htr : ∀ mem a p i, (tr mem a).2 (.rom p i) = mem (.rom p i)) (p i : Nat) : ∀ (it : Nat) (addr : Addr) (left tot : Nat)
    (src : Src) (mem : Mem) (invs : List (Addr × Nat)) (res : WriteRes),
    writeLoop s ramSize fuel tr it addr left tot src mem invs = .ret res → res.mem (.rom p i) = mem (.rom p i) := by
  intro it
  induction it with
  | zero =>
    intro addr left tot src mem invs res h
    unfold writeLoop at h
    split at h <;> cases h
    rfl
  | succ it ih =>
    intro addr left tot src mem invs res h
    unfold writeLoop at h
    split at h
    · cases h; rfl
    · simp only at h
      have ht := htr mem addr p i
      cases hr : tr mem addr with
      | mk o mem1 =>
        rw [hr] at h ht
        cases o with
        | none => cases h; exact ht
        | some x =>
          obtain ⟨phys, isCode⟩ := x
          simp only at h ht
          cases htg : target s ramSize fuel phys (chunk addr left) with
          | ram j => rw [htg] at h; rw [ih _ _ _ _ _ _ _ h]; simpa [poke] using ht
          | rom q j => rw [htg] at h; rw [ih _ _ _ _ _ _ _ h]; exact ht
          | fail => rw [htg] at h; cases h; exact ht
          | ub => rw [htg] at h; cases h
          | hangs => rw [htg] at h; cases h

/-- **C13**: no block write or fill, physical or virtual (with any address translation that does not itself write to rom),
successful or not, changes a byte of a rom buffer. -/
theorem C13_rom_never_modified (s : Space) (ramSize fuel : Nat) (tr : Mem → Addr → Option (Addr × Bool) × Mem)
    (htr : ∀ mem a p i, (tr mem a).2 (.rom p i) = mem (.rom p i)) (addr : Addr) (size : Nat) (src : Src) (mem : Mem) (res : WriteRes)
    (h : writeBlock s ramSize fuel tr addr size src mem = .ret res) (p i : Nat) : res.mem (.rom p i) = mem (.rom p i) :=
  writeLoop_rom htr p i _ _ _ _ _ _ _ _ h

/-- Non-trivial case: a write across ram and rom of `exMap` changes the ram byte and not the rom bytes. -/
example : ∃ w, writeBlock exMap 0x10010 4 physW 0xFFFF 3 (.buffer [1, 2, 3]) (fun _ => 9) = .ret w ∧ w.status = .success ∧
    w.mem (.ram 0xFFFF) = 1 ∧ w.mem (.rom 7 0) = 9 ∧ w.mem (.rom 7 1) = 9 := ⟨_, rfl, rfl, rfl, rfl, rfl⟩

/-- **C13, second part**: a block write or fill that lies in a rom region reports success for the whole size and changes
nothing at all. -/
theorem C13_write_to_rom_succeeds (s : Space) (G : Good s) (ramSize fuel : Nat) (addr : Addr) (size : Nat) (src : Src) (mem : Mem) (r : Region)
    (hr : ∃ n ∈ s.nodes, n.reg = r) (hty : r.type = .rom) (hlo : r.start ≤ addr.toNat) (hhi : addr.toNat + size ≤ r.stop + 1) :
    ∃ res, writeBlock s ramSize (fuel + 1) physW addr size src mem = .ret res ∧ res.status = .success ∧ res.actual = size ∧ res.mem = mem := by
  obtain ⟨n, hn, rfl⟩ := hr
  have hmax : n.reg.stop ≤ 4294967295 := by have := G.tiled.leMax n hn; rw [G.max] at this; exact this
  have key : ∀ (it left tot : Nat) (a : Addr) (src : Src) (invs : List (Addr × Nat)), left ≤ it →
      (left = 0 ∨ (n.reg.start ≤ a.toNat ∧ a.toNat + left ≤ n.reg.stop + 1)) →
      ∃ res, writeLoop s ramSize (fuel + 1) physW it a left tot src mem invs = .ret res ∧ res.status = .success ∧ res.actual = tot + left ∧ res.mem = mem := by
    intro it
    induction it with
    | zero =>
      intro left tot a src invs hle _
      unfold writeLoop
      rw [if_pos (by omega)]
      exact ⟨_, rfl, rfl, by simp only; omega, rfl⟩
    | succ it ih =>
      intro left tot a src invs hle h2
      unfold writeLoop
      by_cases hl : left = 0
      · rw [if_pos hl]; exact ⟨_, rfl, rfl, by simp only; omega, rfl⟩
      · rw [if_neg hl]
        obtain ⟨c1, c2, c3⟩ := chunk_pos (a := a) hl
        obtain ⟨h1, h2⟩ := h2.resolve_left hl
        have ht : target s ramSize (fuel + 1) a (chunk a left) = .rom n.reg.romPtr (a - BitVec.ofNat 32 n.reg.buffOff).toNat := by
          unfold target
          rw [G.tiled.search_of_mem hn ⟨h1, by omega⟩]
          simp only [resolve, hty]
          rw [noWrap (by omega) c1, if_pos ⟨h1, by omega⟩]
        simp only [physW, if_true, ht]
        obtain ⟨res, g1, g2, g3, g4⟩ := ih (left - chunk a left) (tot + chunk a left) (a + BitVec.ofNat 32 (chunk a left)) (src.advance (chunk a left)) (invs ++ [(a, chunk a left)]) (by omega)
          (by
            by_cases hd : left - chunk a left = 0
            · exact Or.inl hd
            · have hw : a.toNat + chunk a left < 4294967296 := by omega
              exact Or.inr ⟨by rw [toNat_add_small hw]; omega, by rw [toNat_add_small hw]; omega⟩)
        exact ⟨res, g1, g2, by rw [g3]; omega, g4⟩
  obtain ⟨res, g1, g2, g3, g4⟩ := key size size 0 addr src [] (Nat.le_refl _) (Or.inr ⟨hlo, hhi⟩)
  exact ⟨res, g1, g2, by omega, g4⟩

/-! ### C14 -/

theorem poke_congr (mem : Mem) (i n : Nat) {b b' : Nat → Byte} (h : ∀ k, k < n → b k = b' k) : poke mem i n b = poke mem i n b' := by
  rw [poke_eq, poke_eq]
  exact storeAll_congr _ (fun k hk => ⟨rfl, h k hk⟩)

theorem fill_eq {s : Space} {ramSize fuel : Nat} {tr : Mem → Addr → Option (Addr × Bool) × Mem} (v : BitVec 32) :
    ∀ (it : Nat) (addr : Addr) (left tot : Nat) (mem : Mem) (invs : List (Addr × Nat)),
    writeLoop s ramSize fuel tr it addr left tot (.fill v) mem invs =
      writeLoop s ramSize fuel tr it addr left tot (.buffer (List.replicate left (v.setWidth 8))) mem invs := by
  intro it
  induction it with
  | zero => intros; rfl
  | succ it ih =>
    intro addr left tot mem invs
    unfold writeLoop
    split
    · rfl
    · next hl =>
      obtain ⟨c1, c2, c3⟩ := chunk_pos (a := addr) hl
      simp only
      split
      · rfl
      · next phys isCode mem1 _ =>
        split
        · next i _ =>
          have e : poke mem1 i (chunk addr left) (Src.fill v).byte =
              poke mem1 i (chunk addr left) (Src.buffer (List.replicate left (v.setWidth 8))).byte := by
            apply poke_congr
            intro k hk
            simp [Src.byte, List.getD_eq_getElem?_getD, List.getElem?_replicate, show k < left by omega]
          rw [e]
          simp only [Src.advance, List.drop_replicate]
          exact ih _ _ _ _ _
        · simp only [Src.advance, List.drop_replicate]
          exact ih _ _ _ _ _
        · rfl
        · rfl
        · rfl

/-- **C14**: mem_fill_block(addr, size, val) behaves exactly like mem_write_block of `size` copies of the low byte of val: same
outcome, status, actual_size, memory and invalidations, physical or virtual, for every map. -/
theorem C14_fill_is_constant_write (s : Space) (ramSize fuel : Nat) (tr : Mem → Addr → Option (Addr × Bool) × Mem) (addr : Addr) (size : Nat)
    (v : BitVec 32) (mem : Mem) :
    writeBlock s ramSize fuel tr addr size (.fill v) mem =
      writeBlock s ramSize fuel tr addr size (.buffer (List.replicate size (v.setWidth 8))) mem :=
  fill_eq v size addr size 0 mem []

example : ∃ w, writeBlock exMap 0x10010 4 physW 0xFFF 2 (.fill 0x1AB) (fun _ => 9) = .ret w ∧
    w.mem (.ram 0xFFF) = 0xAB ∧ w.mem (.ram 0x1000) = 0xAB ∧ w.mem (.ram 0x1001) = 9 ∧ w.invs = [(0xFFF, 1), (0x1000, 1)] :=
  ⟨_, rfl, rfl, rfl, rfl, rfl⟩

end Verif.Block
