import Verif.Lemmas.Block
import Verif.Model.Dispatch
import Verif.Props.Block
/-
C72: guest accesses of one size reach exactly the bytes (or the device) behind their addresses.
-/
namespace Verif.Dispatch
open Verif.AS Verif.AS.Spec Verif.Block Verif.Block.Spec Verif.Region

/-- The `n` bytes from `a` lie in one region, and what they forward to (at `b`) lies in one region `z`. -/
def InOne (s : Space) (a : Addr) (n : Nat) (z : Region) (b : Addr) : Prop :=
  ∃ r, s.search a.toNat = some r ∧ r.start ≤ a.toNat ∧ a.toNat + n ≤ r.stop + 1 ∧ Forwards s.nodes r a z b ∧
    z.start ≤ b.toNat ∧ b.toNat + n ≤ z.stop + 1

theorem notAlias {r : Region} (h : AliasOk r) : r.aliased = none → r.type ≠ .alias := fun h1 h2 => h.1.1 h2 h1

theorem resolveAlias_of_forwards {m : List Node} {r z : Region} {a b : Addr} (hz : AliasOk z) (h : Forwards m r a z b) :
    ∃ f0, ∀ f, f0 ≤ f → resolveAlias m f r a = .done (z, b) := by
  obtain ⟨f0, h0⟩ := forwards_resolveLoop h
  refine ⟨f0, fun f hf => ?_⟩
  have hzo : z.aliasOff = 0 := hz.2 (forwards_notAlias h)
  simp only [resolveAlias, h0 f hf, LoopRes.map, hzo]
  congr 2
  grind

/-- Enough iterations: the dispatch is that of the region the access forwards to. -/
theorem dest_eq {s : Space} (G : Good s) (ramSize : Nat) {a b : Addr} {n : Nat} {z : Region} (h : InOne s a n z b) :
    ∃ F, ∀ fuel, F ≤ fuel → ∃ f, destAt s ramSize fuel a n = dest s.nodes ramSize (f + 1) z b n := by
  obtain ⟨r, hr, -, -, hf, -, -⟩ := h
  obtain ⟨q, hq, rfl, -⟩ := search_region G hr
  have hz : AliasOk z := by
    rcases forwards_mem hf with rfl | ⟨w, hw, rfl⟩
    · exact G.alias q hq
    · exact G.alias w hw
  by_cases ht : q.reg.type = .alias
  · obtain ⟨F, hF⟩ := resolveAlias_of_forwards hz hf
    refine ⟨F + 2, fun fuel hfu => ?_⟩
    obtain ⟨f, rfl⟩ : ∃ f, fuel = f + 2 := ⟨fuel - 2, by omega⟩
    refine ⟨f, ?_⟩
    simp only [destAt, hr]
    rw [show f + 2 = (f + 1) + 1 from rfl]
    conv => lhs; unfold dest
    simp only [ht]
    rw [hF (f + 1 + 1) (by omega)]
  · refine ⟨1, fun fuel hfu => ?_⟩
    obtain ⟨f, rfl⟩ : ∃ f, fuel = f + 1 := ⟨fuel - 1, by omega⟩
    refine ⟨f, ?_⟩
    have hn : q.reg.aliased = none := by
      cases h2 : q.reg.aliased with
      | none => rfl
      | some o => exact absurd ((G.alias q hq).1.2 (by simp [h2])) ht
    obtain ⟨rfl, rfl⟩ := forwards_det hf (.here hn)
    simp only [destAt, hr]

/-- Every byte of the access: the region it forwards to and the cell behind it. -/
theorem inOne_byte {s : Space} (G : Good s) {a b : Addr} {n : Nat} {z : Region} (h : InOne s a n z b) {k : Nat} (hk : k < n) :
    s.search (a + BitVec.ofNat 32 k).toNat = s.search a.toNat ∧ InOne s (a + BitVec.ofNat 32 k) 1 z (b + BitVec.ofNat 32 k) ∧
    (a + BitVec.ofNat 32 k).toNat = a.toNat + k ∧ (b + BitVec.ofNat 32 k).toNat = b.toNat + k := by
  obtain ⟨r, hr, h1, h2, hf, h3, h4⟩ := h
  obtain ⟨q, hq, rfl, hqc⟩ := search_region G hr
  have hmax : ∀ w ∈ s.nodes, w.reg.stop ≤ 4294967295 := fun w hw => by
    have := G.tiled.leMax w hw; rw [G.max] at this; exact this
  have hqm := hmax q hq
  have hzm : z.stop ≤ 4294967295 := by
    rcases forwards_mem hf with rfl | ⟨w, hw, rfl⟩
    · exact hqm
    · exact hmax w hw
  have e1 : (a + BitVec.ofNat 32 k).toNat = a.toNat + k := toNat_add_small (by omega)
  have e2 : (b + BitVec.ofNat 32 k).toNat = b.toNat + k := toNat_add_small (by omega)
  have c1 : Contains q.reg (a + BitVec.ofNat 32 k).toNat := by rw [e1]; exact ⟨by omega, by omega⟩
  have hs := G.tiled.search_of_mem hq c1
  exact ⟨hs.trans hr.symm, ⟨q.reg, hs, by omega, by omega, forwards_shift hf _, by omega, by omega⟩, e1, e2⟩

theorem backed {s : Space} (G : Good s) {a b : Addr} {n : Nat} {z : Region} (h : InOne s a n z b) (ht : z.type = .ram ∨ z.type = .rom)
    {k : Nat} (hk : k < n) :
    (b + BitVec.ofNat 32 k - BitVec.ofNat 32 z.buffOff).toNat = (b - BitVec.ofNat 32 z.buffOff).toNat + k ∧
    (z.type = .ram → BackedBy s (a + BitVec.ofNat 32 k) (.ram ((b - BitVec.ofNat 32 z.buffOff).toNat + k))) ∧
    (z.type = .rom → BackedBy s (a + BitVec.ofNat 32 k) (.rom z.romPtr ((b - BitVec.ofNat 32 z.buffOff).toNat + k))) := by
  obtain ⟨-, hk1, e1, e2⟩ := inOne_byte G h hk
  have h' := h
  obtain ⟨r, hr, h1, h2, hf, h3, h4⟩ := h
  obtain ⟨r', hr', h1', h2', hf', h3', h4'⟩ := hk1
  have hzb : z.buffOff ≤ z.start := by
    have : ∃ w ∈ s.nodes, w.reg = z := by
      obtain ⟨q, hq, rfl, -⟩ := search_region G hr
      rcases forwards_mem hf with rfl | hw
      · exact ⟨q, hq, rfl⟩
      · exact hw
    obtain ⟨w, hw, rfl⟩ := this
    exact G.buff w hw (by rcases ht with h | h <;> simp [h])
  have e : (b + BitVec.ofNat 32 k - BitVec.ofNat 32 z.buffOff).toNat = (b - BitVec.ofNat 32 z.buffOff).toNat + k := by
    rw [toNat_sub_le (by omega), toNat_sub_le (by omega), e2]; omega
  refine ⟨e, fun hty => ?_, fun hty => ?_⟩
  · rw [← e]; exact .ram hr' ⟨h1', by omega⟩ hf' ⟨h3', by omega⟩ hty
  · rw [← e]; exact .rom hr' ⟨h1', by omega⟩ hf' ⟨h3', by omega⟩ hty

theorem peek_get (mem : Mem) (c : Nat → Cell) (n k : Nat) (hk : k < n) : (peek mem c n)[k]? = some (mem (c k)) := by
  simp [peek, hk]

theorem peek_length (mem : Mem) (c : Nat → Cell) (n : Nat) : (peek mem c n).length = n := by simp [peek]

/-- The ram buffer is large enough for what region `z` maps up to `b + n`. -/
def Fits (ramSize : Nat) (z : Region) (b : Addr) (n : Nat) : Prop := z.type = .ram → b.toNat - z.buffOff + n ≤ ramSize

theorem fits_ix {s : Space} (G : Good s) {a b : Addr} {n ramSize : Nat} {z : Region} (h : InOne s a n z b) (ht : z.type = .ram) (hf : Fits ramSize z b n) :
    (b - BitVec.ofNat 32 z.buffOff).toNat + n ≤ ramSize := by
  obtain ⟨r, hr, -, -, hfw, h3, -⟩ := h
  have hzb : z.buffOff ≤ z.start := by
    have : ∃ w ∈ s.nodes, w.reg = z := by
      obtain ⟨q, hq, rfl, -⟩ := search_region G hr
      rcases forwards_mem hfw with rfl | hw
      · exact ⟨q, hq, rfl⟩
      · exact hw
    obtain ⟨w, hw, rfl⟩ := this
    exact G.buff w hw (by simp [ht])
  rw [toNat_sub_le (by omega)]
  exact hf ht

/-- C72, reads of memory: a read of any size that lies in one ram or rom region (directly or through aliases)
returns, byte for byte, the bytes behind its addresses, and calls no device. Missing: accesses that run past
the end of a region, see the violations. -/
theorem C72_read_memory_partial (s : Space) (G : Good s) (ramSize : Nat) (dev : Dev) (mem : Mem) (a b : Addr) (n : Nat) (z : Region)
    (hn : 0 < n) (h : InOne s a n z b) (ht : z.type = .ram ∨ z.type = .rom) (hz : Fits ramSize z b n) :
    ∃ F, ∀ fuel, F ≤ fuel → ∃ v, read s ramSize fuel dev mem a n = .ok v [] ∧ v.length = n ∧
      ∀ k, k < n → ∃ c, BackedBy s (a + BitVec.ofNat 32 k) c ∧ v[k]? = some (mem c) := by
  obtain ⟨F, hF⟩ := dest_eq G ramSize h
  refine ⟨F, fun fuel hfu => ?_⟩
  obtain ⟨f, hd⟩ := hF fuel hfu
  rcases ht with ht | ht
  · have hix := fits_ix G h ht hz
    have : destAt s ramSize fuel a n = .ram (b - BitVec.ofNat 32 z.buffOff).toNat := by
      rw [hd]; simp only [dest, ht, if_pos hix]
    refine ⟨peek mem (fun k => .ram ((b - BitVec.ofNat 32 z.buffOff).toNat + k)) n, by simp only [read, this], peek_length _ _ _, fun k hk => ?_⟩
    exact ⟨_, (backed G h (.inl ht) hk).2.1 ht, peek_get _ _ _ _ hk⟩
  · have hend : ¬ b.toNat + n - 1 > z.stop := by
      obtain ⟨r, -, -, -, -, -, h4⟩ := h; omega
    have : destAt s ramSize fuel a n = .rom z.romPtr (b - BitVec.ofNat 32 z.buffOff).toNat := by
      rw [hd]; simp only [dest, ht, if_neg hend]
    refine ⟨peek mem (fun k => .rom z.romPtr ((b - BitVec.ofNat 32 z.buffOff).toNat + k)) n, by simp only [read, this], peek_length _ _ _, fun k hk => ?_⟩
    exact ⟨_, (backed G h (.inr ht) hk).2.2 ht, peek_get _ _ _ _ hk⟩

theorem storeAll_ram (mem : Mem) (i : Nat) (v : Nat → Byte) (n : Nat) : storeAll mem (fun k => .ram (i + k)) v n = poke mem i n v := by
  induction n with
  | zero =>
    funext c
    cases c with
    | ram j => simp only [storeAll, poke]; rw [if_neg (by omega)]
    | rom p j => rfl
  | succ n ih =>
    simp only [storeAll, ih, store]
    funext c
    cases c with
    | ram j =>
      simp only [poke, Cell.ram.injEq]
      by_cases hj : j = i + n
      · subst hj; rw [if_pos rfl, if_pos (by omega), Nat.add_sub_cancel_left]
      · rw [if_neg hj]
        by_cases h2 : i ≤ j ∧ j < i + n
        · rw [if_pos h2, if_pos (by omega)]
        · rw [if_neg h2, if_neg (by omega)]
    | rom p j => simp [poke]

/-- C72, writes to memory: a write that lies in one ram region stores its bytes one after the other behind its
addresses and changes nothing else; one that lies in a rom region changes nothing. No device is called. -/
theorem C72_write_memory_partial (s : Space) (G : Good s) (ramSize : Nat) (mem : Mem) (a b : Addr) (v : List Byte) (z : Region)
    (hn : 0 < v.length) (h : InOne s a v.length z b) (ht : z.type = .ram ∨ z.type = .rom) (hz : Fits ramSize z b v.length) :
    ∃ F, ∀ fuel, F ≤ fuel → ∃ at_ : Nat → Cell, (∀ k, k < v.length → BackedBy s (a + BitVec.ofNat 32 k) (at_ k)) ∧
      write s ramSize fuel mem a v = .ok (storeAll mem at_ (fun k => v.getD k 0) v.length) [] := by
  obtain ⟨F, hF⟩ := dest_eq G ramSize h
  refine ⟨F, fun fuel hfu => ?_⟩
  obtain ⟨f, hd⟩ := hF fuel hfu
  rcases ht with ht | ht
  · have hix := fits_ix G h ht hz
    have : destAt s ramSize fuel a v.length = .ram (b - BitVec.ofNat 32 z.buffOff).toNat := by
      rw [hd]; simp only [dest, ht, if_pos hix]
    refine ⟨fun k => .ram ((b - BitVec.ofNat 32 z.buffOff).toNat + k), fun k hk => (backed G h (.inl ht) hk).2.1 ht, ?_⟩
    simp only [write, this, storeAll_ram]
  · have hend : ¬ b.toNat + v.length - 1 > z.stop := by
      obtain ⟨r, -, -, -, -, -, h4⟩ := h; omega
    have : destAt s ramSize fuel a v.length = .rom z.romPtr (b - BitVec.ofNat 32 z.buffOff).toNat := by
      rw [hd]; simp only [dest, ht, if_neg hend]
    refine ⟨fun k => .rom z.romPtr ((b - BitVec.ofNat 32 z.buffOff).toNat + k), fun k hk => (backed G h (.inr ht) hk).2.2 ht, ?_⟩
    have hst : ∀ n, storeAll mem (fun k => .rom z.romPtr ((b - BitVec.ofNat 32 z.buffOff).toNat + k)) (fun k => v.getD k 0) n = mem := by
      intro n; induction n with
      | zero => rfl
      | succ n ih => simp only [storeAll, ih, store]
    simp only [write, this, hst]

/-- C72, devices: an access of 1, 2, 4 or 8 bytes that forwards to a device is exactly one call of the handler of
that device, for the whole size, at the address forwarded to; memory is not touched. -/
theorem C72_device_partial (s : Space) (G : Good s) (ramSize : Nat) (dev : Dev) (mem : Mem) (a b : Addr) (n : Nat) (z : Region)
    (hn : n = 1 ∨ n = 2 ∨ n = 4 ∨ n = 8) (h : InOne s a n z b) (ht : z.type = .mmio) :
    ∃ F, ∀ fuel, F ≤ fuel → read s ramSize fuel dev mem a n = .ok (dev z b n) [⟨z, b, n, none⟩] ∧
      ∀ v, v.length = n → write s ramSize fuel mem a v = .ok mem [⟨z, b, n, some v⟩] := by
  obtain ⟨F, hF⟩ := dest_eq G ramSize h
  refine ⟨F, fun fuel hfu => ?_⟩
  obtain ⟨f, hd⟩ := hF fuel hfu
  have : destAt s ramSize fuel a n = .dev z b := by
    rw [hd]; simp only [dest, ht, if_pos hn]
  refine ⟨by simp only [read, this], fun v hv => ?_⟩
  subst hv
  simp only [write, this]

/-- C72: unmapped addresses read as 0 and ignore writes. -/
theorem C72_unmapped_partial (s : Space) (G : Good s) (ramSize : Nat) (dev : Dev) (mem : Mem) (a b : Addr) (n : Nat) (z : Region)
    (h : InOne s a n z b) (ht : z.type = .unmapped) :
    ∃ F, ∀ fuel, F ≤ fuel → read s ramSize fuel dev mem a n = .ok (List.replicate n 0) [] ∧
      ∀ v, v.length = n → write s ramSize fuel mem a v = .ok mem [] := by
  obtain ⟨F, hF⟩ := dest_eq G ramSize h
  refine ⟨F, fun fuel hfu => ?_⟩
  obtain ⟨f, hd⟩ := hF fuel hfu
  have : destAt s ramSize fuel a n = .unmapped := by
    rw [hd]; simp only [dest, ht]
  refine ⟨by simp only [read, this], fun v hv => ?_⟩
  subst hv
  simp only [write, this]

/-- `exMap` (ram at 0-0xFFFF, rom at 0x10000-0x10FFF, alias of 0x1000-0x17FF at 0x20000): a four byte access through
the alias, which is one of ram. -/
example : InOne exMap 0x20004#32 4 { start := 0, stop := 0xFFFF, type := .ram } 0x1004#32 ∧
    Fits 0x10010 { start := 0, stop := 0xFFFF, type := .ram } 0x1004#32 4 := by
  refine ⟨⟨{ start := 0x20000, stop := 0x207FF, type := .alias, aliasOff := 0x1000, aliased := some (.own 0) }, by decide, by decide, by decide, ?_, by decide, by decide⟩,
    fun _ => by decide⟩
  exact .next (q := { key := 0, oid := .own 0, reg := { start := 0, stop := 0xFFFF, type := .ram } }) rfl (by decide) (.here rfl)

/-- And what it reads. -/
example : read exMap 0x10010 9 (fun _ _ _ => []) (fun | .ram i => BitVec.ofNat 8 i | _ => 0) 0x20004#32 4 = .ok [4, 5, 6, 7] [] := by rfl
/-- A two byte access of rom, and unmapped memory. -/
example : read exMap 0x10010 9 (fun _ _ _ => []) (fun | .rom 7 i => BitVec.ofNat 8 i | _ => 0) 0x10003#32 2 = .ok [3, 4] [] := by rfl
example : read exMap 0x10010 9 (fun _ _ _ => []) (fun _ => 1) 0x30000#32 2 = .ok [0, 0] [] := by rfl

/-- Memory whose byte `i` of the ram buffer is `i`, and rom bytes all 0xEE. -/
def exBytes : Mem
  | .ram i => BitVec.ofNat 8 i
  | .rom _ _ => 0xEE

/-- C72 fails: ram at 0-0x7FF is followed by a device. A four byte read at 0x7FE returns bytes 0x800 and 0x801 of the
ram buffer, which back no address, instead of asking the device; a write changes them. -/
theorem C72_past_ram_violation : ∃ c, Cpu.init.run [.ram 0 0x800 false, .io 0x800 0x800 false { r8 := .client 1, r16 := .client 2, r32 := .client 3 } 5 false 0] = some c ∧
    read c.mem 0x1000 4 (fun _ _ _ => [0x55]) exBytes 0x7FE#32 4 = .ok [0xFE, 0xFF, 0x00, 0x01] [] ∧
    readByte c.mem 0x1000 4 (fun _ _ _ => [0x55]) exBytes 0x800#32 =
      .ok 0x55 [⟨{ start := 0x800, stop := 0xFFF, type := .mmio, handlers := { r8 := .client 1, r16 := .client 2, r32 := .client 3, r64 := .dflt, w8 := .dflt, w16 := .dflt, w32 := .dflt, w64 := .dflt }, opaq := 5 }, 0x800#32, 1, none⟩] ∧
    ∃ m, write c.mem 0x1000 4 exBytes 0x7FE#32 [1, 2, 3, 4] = .ok m [] ∧ m (.ram 0x800) = 3 := by
  refine ⟨_, rfl, by rfl, by rfl, _, rfl, rfl⟩

/-- C72, accesses of 10 and 16 bytes (FLD m80, MOVAPS) to a device: the emulator gives up, always. -/
theorem C72_wide_device_partial (s : Space) (G : Good s) (ramSize : Nat) (dev : Dev) (mem : Mem) (a b : Addr) (n : Nat) (z : Region)
    (hn : n = 10 ∨ n = 16) (h : InOne s a n z b) (ht : z.type = .mmio) :
    ∃ F, ∀ fuel, F ≤ fuel → read s ramSize fuel dev mem a n = .abort ∧ ∀ v, v.length = n → write s ramSize fuel mem a v = .abort := by
  obtain ⟨F, hF⟩ := dest_eq G ramSize h
  refine ⟨F, fun fuel hfu => ?_⟩
  obtain ⟨f, hd⟩ := hF fuel hfu
  have hw : ¬ (n = 1 ∨ n = 2 ∨ n = 4 ∨ n = 8) := by omega
  have : destAt s ramSize fuel a n = .abort := by
    rw [hd]; simp only [dest, ht, if_neg hw]
  refine ⟨by simp only [read, this], fun v hv => ?_⟩
  subst hv
  simp only [write, this]

/-- C72 fails: a guest program that loads 16 bytes from a device stops the emulator. -/
theorem C72_wide_device_violation : ∃ c, Cpu.init.run [.ram 0 0x800 false, .io 0x800 0x800 false { r8 := .client 1, r16 := .client 2, r32 := .client 3 } 5 false 0] = some c ∧
    read c.mem 0x1000 4 (fun _ _ _ => [0x55]) exBytes 0x900#32 16 = .abort ∧ read c.mem 0x1000 4 (fun _ _ _ => [0x55]) exBytes 0x900#32 8 ≠ .abort := by
  refine ⟨_, rfl, by rfl, fun h => ?_⟩
  cases h

/-- C72 fails: rom at 0x1000-0x100F is followed by ram. A four byte read at 0x100E returns 0 for the two bytes of ram. -/
theorem C72_past_rom_violation : ∃ c, Cpu.init.run [.rom 0x1000 16 (some 7) false, .ram 0x1010 0xFF0 false] = some c ∧
    read c.mem 0x1000 4 (fun _ _ _ => []) (fun | .ram _ => 0x11 | .rom _ _ => 0xEE) 0x100E#32 4 = .ok [0xEE, 0xEE, 0, 0] [] ∧
    readByte c.mem 0x1000 4 (fun _ _ _ => []) (fun | .ram _ => 0x11 | .rom _ _ => 0xEE) 0x1010#32 = .ok 0x11 [] := by
  refine ⟨_, rfl, by rfl, by rfl⟩

/-- C72 fails: an alias of the last bytes below 4 GiB. A four byte read at its end, on one page, never returns: the
address in the loop wraps around and never passes the end of the rom. -/
theorem C72_rom_at_top_hangs_violation : ∃ c, Cpu.init.run [.rom 0xFFFF0000 0x10000 (some 7) false, .alias 0x1000 0xFFFFF001 0xFFF false] = some c ∧
    ∀ fuel, read c.mem 0x1000 fuel (fun _ _ _ => []) exBytes 0x1FFC#32 4 = .hangs := by
  refine ⟨_, rfl, fun fuel => ?_⟩
  rcases fuel with _ | _ | _ | f
  · rfl
  · rfl
  · rfl
  · rfl

/-- One byte of a rom region that is not reached through an alias. -/
theorem readByte_rom {s : Space} (ramSize fuel : Nat) (dev : Dev) (mem : Mem) {a : Addr} {z : Region}
    (hs : s.search a.toNat = some z) (ht : z.type = .rom) (hc : a.toNat ≤ z.stop) :
    readByte s ramSize (fuel + 1) dev mem a = .ok (mem (.rom z.romPtr (a - BitVec.ofNat 32 z.buffOff).toNat)) [] := by
  have h1 : ¬ a.toNat + 1 - 1 > z.stop := by omega
  simp only [readByte, destAt, hs, dest, ht, if_neg h1]

/-- The bytes of a rom region from `a` on, one by one. -/
theorem romBytes_rom {s : Space} (G : Good s) (ramSize fuel : Nat) (dev : Dev) (mem : Mem) {z : Region} (ht : z.type = .rom) :
    ∀ (k : Nat) (a : Addr), s.search a.toNat = some z → a.toNat + k ≤ z.stop + 1 → z.stop < 4294967295 →
    romBytes s ramSize (fuel + 1) dev mem k a =
      .ok ((List.range k).map fun i => mem (.rom z.romPtr (a + BitVec.ofNat 32 i - BitVec.ofNat 32 z.buffOff).toNat)) []
  | 0, _, _, _, _ => rfl
  | 1, a, hs, he, hm => by
    rw [romBytes, readByte_rom ramSize fuel dev mem hs ht (by omega)]
    simp [romBytes]
  | k + 2, a, hs, he, hm => by
    rw [romBytes, readByte_rom ramSize fuel dev mem hs ht (by omega)]
    obtain ⟨q, hq, rfl, hqc⟩ := search_region G hs
    have e1 : (a + 1#32).toNat = a.toNat + 1 := by rw [BitVec.toNat_add]; simp; omega
    have c1 : Contains q.reg (a + 1#32).toNat := by rw [e1]; exact ⟨by have := hqc.1; omega, by omega⟩
    have hs1 := G.tiled.search_of_mem hq c1
    simp only []
    rw [romBytes_rom G ramSize fuel dev mem ht (k + 1) (a + 1#32) hs1 (by omega) hm]
    simp only [List.append_nil]
    rw [List.range_succ_eq_map (n := k + 1)]
    simp only [List.map_cons, List.map_map, Function.comp_def]
    congr 2
    · simp
    · apply List.map_congr_left
      intro i _
      have : a + 1#32 + BitVec.ofNat 32 i = a + BitVec.ofNat 32 (i + 1) := by
        rw [BitVec.ofNat_add]; grind
      rw [this]

/-- C72, reads that run past the end of a rom region (below the last address): the bytes of the rom come first, in
order; the others read as 0, whatever is behind their addresses. -/
theorem C72_rom_tail_partial (s : Space) (G : Good s) (ramSize : Nat) (dev : Dev) (mem : Mem) (a : Addr) (n : Nat) (z : Region)
    (hs : s.search a.toNat = some z) (hr : z.type = .rom) (ha : z.start ≤ a.toNat) (hm : z.stop < 4294967295)
    (hin : a.toNat ≤ z.stop) (hout : z.stop + 1 < a.toNat + n) (fuel : Nat) :
    ∃ v, read s ramSize (fuel + 1) dev mem a n = .ok v [] ∧ v.length = n ∧
      (∀ k, a.toNat + k ≤ z.stop → ∃ c, BackedBy s (a + BitVec.ofNat 32 k) c ∧ v[k]? = some (mem c)) ∧
      ∀ k, z.stop < a.toNat + k → k < n → v[k]? = some 0 := by
  have hd : destAt s ramSize (fuel + 1) a n = .romTail z a := by
    simp only [destAt, hs, dest, hr]
    rw [if_pos (by omega)]
  have hlen : z.stop + 1 - a.toNat ≤ n := by omega
  have hz : z.aliased = none := by
    obtain ⟨q, hq, rfl, -⟩ := search_region G hs
    cases h2 : q.reg.aliased with
    | none => rfl
    | some o => exact absurd ((G.alias q hq).1.2 (by simp [h2])) (by simp [hr])
  have hI : InOne s a (z.stop + 1 - a.toNat) z a := ⟨z, hs, ha, by omega, .here hz, ha, by omega⟩
  refine ⟨_, by simp only [read, hd]; rw [if_neg (by omega), romBytes_rom G ramSize fuel dev mem hr _ _ hs (by omega) hm], ?_, ?_, ?_⟩
  · simp; omega
  · intro k hk
    have hk' : k < z.stop + 1 - a.toNat := by omega
    obtain ⟨e, -, hb⟩ := backed G hI (.inr hr) hk'
    refine ⟨_, hb hr, ?_⟩
    rw [List.getElem?_append_left (by simpa using hk'), List.getElem?_map, List.getElem?_range hk', Option.map_some, e]
  · intro k hk hkn
    rw [List.getElem?_append_right (by simp; omega)]
    simp [List.getElem?_replicate]
    omega

/-- The rom of `exMap` ends at 0x10FFF. -/
example : exMap.search (0x10FFD#32).toNat = some { start := 0x10000, stop := 0x10FFF, type := .rom, romPtr := 7, buffOff := 0x10000 } := by decide

end Verif.Dispatch
