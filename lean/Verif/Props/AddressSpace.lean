/-
C01, C02, C03, C06: the memory map (as.hpp).
-/
import Verif.Lemmas.AddressSpace

namespace Verif.AS
open Spec

/-- Backing storage of an address (memory_management.hpp 230-240 get_rom_host_ptr / get_ram_host_ptr):
`ram[addr - buff_off_start]`, `rom_ptr[addr - buff_off_start]`. -/
inductive HostByte where
  | ram (off : Int)
  | rom (ptr : Nat) (off : Int)
  deriving DecidableEq

def hostByte (s : Space) (a : Nat) : Option HostByte :=
  match s.search a with
  | some r => match r.type with
    | .ram => some (.ram ((a : Int) - r.buffOff))
    | .rom => some (.rom r.romPtr ((a : Int) - r.buffOff))
    | _ => none
  | none => none

/-- Helper of the theorems below: run of a benign history. -/
theorem run_benign (s : Space) (T : Tiled s) (ops : List Op) (hv : ∀ op ∈ ops, OpValid s.max op) (hb : Benign s ops) :
    ∃ s', s.run ops = some s' ∧ Tiled s' ∧ s'.max = s.max ∧
      ∀ (hist : List Op), (∀ a, a ≤ s.max → serves s a = some (intended hist a)) →
        ∀ a, a ≤ s.max → serves s' a = some (intended (ops.reverse ++ hist) a) := by
  induction ops generalizing s with
  | nil => exact ⟨s, rfl, T, rfl, fun hist h a ha => by simpa using h a ha⟩
  | cons op ops ih =>
    obtain ⟨s1, hs1, T1, hmax1, hserv1⟩ := step_spec T op (hv op (by simp)) hb.1
    obtain ⟨s2, hs2, T2, hmax2, hserv2⟩ := ih s1 T1 (fun o ho => by rw [hmax1]; exact hv o (by simp [ho])) (hb.2 s1 hs1)
    refine ⟨s2, by simp [Space.run, hs1, hs2], T2, hmax2.trans hmax1, ?_⟩
    intro hist hh a ha
    have := hserv2 (op :: hist) (fun a ha => by
      rw [hserv1 a (by omega)]
      by_cases hin : Op.lo op ≤ a ∧ a ≤ Op.hi op
      · rw [if_pos hin]
        cases op <;> simp only [Op.lo, Op.hi, intended] at hin ⊢ <;> rw [if_pos hin] <;> rfl
      · rw [if_neg hin, hh a (by omega)]
        cases op <;> simp only [Op.lo, Op.hi, intended] at hin ⊢ <;> rw [if_neg hin]) a (by omega)
    simpa using this

/-- **C01 (partial)**: full statement: after *every* history of valid changes each address is found in exactly one region
and that region contains it, and what serves it is decided by the latest change covering it.  Proved for every history in
which the coincidence of `Spec.Coincidence` does not occur; it is false without that guard, see `C01_gap_violation`. -/
theorem C01_every_address_in_its_region_partial (max : Nat) (ops : List Op) (hv : ∀ op ∈ ops, OpValid max op)
    (hb : Benign (Space.create max) ops) :
    ∃ s, (Space.create max).run ops = some s ∧ Covers s ∧
      (∀ n ∈ s.nodes, ∀ n' ∈ s.nodes, ∀ a, Contains n.reg a → Contains n'.reg a → n = n') ∧
      ∀ a, a ≤ max → serves s a = some (intended ops.reverse a) := by
  obtain ⟨s, hs, T, hmax, hserv⟩ := run_benign _ (tiled_create max) ops hv hb
  refine ⟨s, hs, T.covers, fun n hn n' hn' a h1 h2 => T.eq_of_contains hn hn' h1 h2, ?_⟩
  intro a ha
  have := hserv [] (fun a ha => by
    have hc : Contains (Region.mk 0 max .unmapped {} 0 0 none 0 0) a := ⟨Nat.zero_le _, ha⟩
    have := (tiled_create max).serves_of_mem (n := { key := 0, oid := .own 0, reg := { start := 0, stop := max } })
      (by simp [Space.create]) hc
    rw [this]; rfl) a ha
  simpa using this

/-- A history whose ranges all start and end on a multiple of `g` never meets the coincidence. -/
theorem benign_of_aligned (g : Nat) (hg : 2 ≤ g) (s : Space) (T : Tiled s) (hm : g ∣ s.max + 1)
    (hk : ∀ n ∈ s.nodes, g ∣ n.key) (ops : List Op) (hv : ∀ op ∈ ops, OpValid s.max op)
    (hal : ∀ op ∈ ops, g ∣ Op.lo op ∧ g ∣ Op.hi op + 1) : Benign s ops := by
  induction ops generalizing s with
  | nil => trivial
  | cons op ops ih =>
    have hnc : ¬ Coincidence s op := by
      rintro ⟨r, hr, hrs, -, -⟩
      have hle : Op.hi op ≤ s.max := by
        have := hv op (by simp)
        cases op <;> exact this.2
      obtain ⟨n, hn, hc⟩ := T.exists_contains hle
      have := T.search_of_mem hn hc
      rw [this] at hr
      cases hr
      have h1 := hk n hn
      rw [T.keyStart n hn, hrs] at h1
      have h2 := (hal op (by simp)).2
      have := (Nat.dvd_add_right h1).1 h2
      have := Nat.le_of_dvd (by omega) this
      omega
    refine ⟨hnc, ?_⟩
    intro s' hs'
    obtain ⟨s1, hs1, T1, hmax1, _⟩ := step_spec T op (hv op (by simp)) hnc
    rw [hs1] at hs'
    cases hs'
    refine ih s' T1 (by rw [hmax1]; exact hm) ?_ (fun o ho => by rw [hmax1]; exact hv o (by simp [ho]))
      (fun o ho => hal o (by simp [ho]))
    refine keysP_step (P := fun k => g ∣ k) T (hv op (by simp)) hk (hal op (by simp)).1 ?_ hs1
    exact (Nat.dvd_mod_iff hm).2 (hal op (by simp)).2

/-- **C01 for aligned histories**: if every range starts and ends on a multiple of some `g ≥ 2` (for instance pages), the
property holds without any further condition, for the 32 bit memory space, the 16 bit port space or any other size. -/
theorem C01_aligned_histories_partial (g max : Nat) (hg : 2 ≤ g) (hm : g ∣ max + 1) (ops : List Op)
    (hv : ∀ op ∈ ops, OpValid max op) (hal : ∀ op ∈ ops, g ∣ Op.lo op ∧ g ∣ Op.hi op + 1) :
    ∃ s, (Space.create max).run ops = some s ∧ Covers s ∧
      (∀ n ∈ s.nodes, ∀ n' ∈ s.nodes, ∀ a, Contains n.reg a → Contains n'.reg a → n = n') ∧
      ∀ a, a ≤ max → serves s a = some (intended ops.reverse a) :=
  C01_every_address_in_its_region_partial max ops hv
    (benign_of_aligned g hg _ (tiled_create max) hm (by simp [Space.create]) ops hv hal)

/-- Two overlapping ram regions and an mmio hole, page aligned, in the 32 bit space: the hypotheses are met. -/
example : ∃ s, (Space.create 0xFFFFFFFF).run
    [.insert { start := 0, stop := 0x7FFFFFF, type := .ram } (.req 100),
     .insert { start := 0xA0000, stop := 0xBFFFF, type := .mmio, handlers := { r8 := .client 7 } } (.req 101),
     .erase 0x100000 0x1FFFFF] = some s ∧ serves s 0xB0000 = some (some { start := 0, stop := 0, type := .mmio, handlers := { r8 := .client 7 } })
     ∧ serves s 0x150000 = some none ∧ serves s 0x200000 = some (some { start := 0, stop := 0, type := .ram }) := by
  obtain ⟨s, hs, -, -, h⟩ := C01_aligned_histories_partial 4096 0xFFFFFFFF (by decide) (by decide)
    [.insert { start := 0, stop := 0x7FFFFFF, type := .ram } (.req 100),
     .insert { start := 0xA0000, stop := 0xBFFFF, type := .mmio, handlers := { r8 := .client 7 } } (.req 101), .erase 0x100000 0x1FFFFF]
    (by simp [OpValid]) (by simp [Op.lo, Op.hi])
  exact ⟨s, hs, h _ (by decide), h _ (by decide), h _ (by decide)⟩

/-- **C01 is violated by the code** without the guard: creating ram at [0x2000,0x2FFF] and then a 0x1001 byte region at
0x1000 leaves a gap; address 0x2800 is found in a region that does not contain it. -/
theorem C01_gap_violation :
    ∃ ops, (∀ op ∈ ops, OpValid 0xFFFFFFFF op) ∧
      ∃ s, (Space.create 0xFFFFFFFF).run ops = some s ∧ ¬ Covers s := by
  refine ⟨[.insert { start := 0x2000, stop := 0x2FFF, type := .ram, buffOff := 0x2000 } (.req 100),
           .insert { start := 0x1000, stop := 0x2000, type := .ram, buffOff := 0x1000 } (.req 101)],
    by simp [OpValid], _, rfl, ?_⟩
  intro h
  obtain ⟨r, hr, hc⟩ := h 0x2800 (by decide)
  have : r = { start := 0x1000, stop := 0x2000, type := .ram, buffOff := 0x1000 } := by
    have : (some r : Option Region) = some { start := 0x1000, stop := 0x2000, type := .ram, buffOff := 0x1000 } := by
      rw [← hr]; decide
    simpa using this
  subst this
  exact absurd hc.2 (by decide)

/-- **C01 is violated by the code**: three valid region creations reach a dereference of `end()` (undefined behaviour). -/
theorem C01_undefined_behaviour_violation :
    ∃ ops, (∀ op ∈ ops, OpValid 0xFFFFFFFF op) ∧ (Space.create 0xFFFFFFFF).run ops = none :=
  ⟨[.insert { start := 0x2000, stop := 0xFFFFFFFF, type := .ram, buffOff := 0x2000 } (.req 100),
    .insert { start := 0x1000, stop := 0x2000, type := .ram, buffOff := 0x1000 } (.req 101),
    .insert { start := 0x3000, stop := 0x3FFF, type := .ram, buffOff := 0x3000 } (.req 102)], by simp [OpValid], by decide⟩

/-- **C02 (partial)**: a new region serves exactly its range; every other address is served as before.  Missing: the
coincidence `¬ Coincidence s _` must be excluded, see `C02_neighbour_lost_violation`. -/
theorem C02_new_region_owns_range_partial (s : Space) (T : Tiled s) (r : Region) (rid : Oid)
    (hle : r.start ≤ r.stop) (hhi : r.stop ≤ s.max) (hc : ¬ Coincidence s (.insert r rid)) :
    ∃ s', s.insert r rid = some s' ∧ Tiled s' ∧
      (∀ a, r.start ≤ a → a ≤ r.stop → serves s' a = some (payload r)) ∧
      (∀ a, a ≤ s.max → a < r.start ∨ r.stop < a → serves s' a = serves s a) := by
  obtain ⟨s', hs, T', -, h, -⟩ := insert_spec T r rid hle hhi (endOk_of_not_coincidence T (.insert r rid) hc)
  refine ⟨s', hs, T', fun a h1 h2 => ?_, fun a ha hout => ?_⟩
  · rw [h a (by omega), if_pos ⟨h1, h2⟩]
  · rw [h a ha, if_neg (by omega)]

example : Tiled (Space.create 0xFFFFFFFF) ∧
    ¬ Coincidence (Space.create 0xFFFFFFFF) (.insert { start := 0x1000, stop := 0x1FFF, type := .ram } (.req 5)) :=
  ⟨tiled_create _, by
    rintro ⟨r, hr, h1, h2, h3⟩
    have : r = { start := 0, stop := 0xFFFFFFFF } := by
      have : (some r : Option Region) = some { start := 0, stop := 0xFFFFFFFF } := by rw [← hr]; decide
      simpa using this
    subst this
    simp [Op.hi] at h1⟩

/-- **C02 is violated by the code**: an address outside the new range stops being served by its region. -/
theorem C02_neighbour_lost_violation :
    ∃ (s : Space) (r : Region) (a : Nat), Tiled s ∧ r.start ≤ r.stop ∧ r.stop < a ∧ a ≤ s.max ∧
      ∃ s', s.insert r (.req 9) = some s' ∧ serves s' a ≠ serves s a := by
  obtain ⟨s, hs, T, _⟩ := insert_spec (tiled_create 0xFFFFFFFF)
    { start := 0x2000, stop := 0x2FFF, type := .rom, romPtr := 3, buffOff := 0x2000 } (.req 1) (by decide) (by decide)
    (by intro n hn h; simp [Space.create] at hn; subst hn; simp at h)
  have hs' : s = { max := 0xFFFFFFFF, fresh := 3, nodes :=
      [{ key := 0, oid := .own 0, reg := { start := 0, stop := 0x1FFF } },
       { key := 0x2000, oid := .own 2, reg := { start := 0x2000, stop := 0x2FFF, type := .rom, romPtr := 3, buffOff := 0x2000 } },
       { key := 0x3000, oid := .own 1, reg := { start := 0x3000, stop := 0xFFFFFFFF } }] } := by
    apply Option.some.inj
    rw [← hs]
    decide
  refine ⟨s, { start := 0x1000, stop := 0x2000, type := .ram, buffOff := 0x1000 }, 0x2800, T, by decide, by decide, ?_⟩
  subst hs'
  exact ⟨by decide, _, rfl, by decide⟩

/-- **C03 (partial)**: destroying a range unmaps exactly that range, also when unmapped neighbours are merged.  Missing:
the coincidence must be excluded, see `C03_neighbour_unmapped_violation`. -/
theorem C03_destroy_unmaps_range_partial (s : Space) (T : Tiled s) (lo hi : Nat) (hle : lo ≤ hi) (hhi : hi ≤ s.max)
    (hc : ¬ Coincidence s (.erase lo hi)) :
    ∃ s', s.erase lo hi = some s' ∧ Tiled s' ∧
      (∀ a, lo ≤ a → a ≤ hi → serves s' a = some none) ∧
      (∀ a, a ≤ s.max → a < lo ∨ hi < a → serves s' a = serves s a) := by
  obtain ⟨s', hs, T', -, h⟩ := erase_spec T lo hi hle hhi (endOk_of_not_coincidence T (.erase lo hi) hc)
  refine ⟨s', hs, T', fun a h1 h2 => ?_, fun a ha hout => ?_⟩
  · rw [h a (by omega), if_pos ⟨h1, h2⟩]
  · rw [h a ha, if_neg (by omega)]

/-- A map with ram around the destroyed range meets the hypotheses of C03 (and its result unmaps only the middle). -/
example : ∃ s s', (Space.create 0xFFFF).run [.insert { start := 0, stop := 0xFFF, type := .ram } (.req 1)] = some s ∧ Tiled s ∧
    s.erase 0x100 0x1FF = some s' ∧ serves s' 0x180 = some none ∧ serves s' 0x200 = serves s 0x200 := by
  have h1 : ∀ n ∈ (Space.create 0xFFFF).nodes, n.reg.start = 0xFFF → n.reg.stop = n.reg.start ∨ n.reg.start ≤ 0 := by
    intro n hn; simp [Space.create] at hn; subst hn; simp
  obtain ⟨s, hs, T, hm, -⟩ := insert_spec (tiled_create 0xFFFF) { start := 0, stop := 0xFFF, type := .ram } (.req 1) (by decide)
    (by decide) h1
  have hs' : s = { max := 0xFFFF, fresh := 2, nodes :=
      [{ key := 0, oid := .own 0, reg := { start := 0, stop := 0xFFF, type := .ram } },
       { key := 0x1000, oid := .own 1, reg := { start := 0x1000, stop := 0xFFFF } }] } := by
    apply Option.some.inj
    rw [← hs]
    decide
  obtain ⟨s', he, -, h3, h4⟩ := C03_destroy_unmaps_range_partial s T 0x100 0x1FF (by decide) (by subst hs'; decide) (by
    subst hs'
    rintro ⟨r, hr, h1, -⟩
    have : r = { start := 0, stop := 0xFFF, type := .ram } := by
      have : (some r : Option Region) = some { start := 0, stop := 0xFFF, type := .ram } := by rw [← hr]; decide
      simpa using this
    subst this
    simp [Op.hi] at h1)
  exact ⟨s, s', by simp [Space.run, Space.step, hs], T, he, h3 _ (by decide) (by decide),
    h4 _ (by subst hs'; decide) (Or.inr (by decide))⟩

/-- **C03 is violated by the code**: destroying [0x1000,0x2000] also unmaps the rest of a region that starts at 0x2000. -/
theorem C03_neighbour_unmapped_violation :
    ∃ s, (Space.create 0xFFFFFFFF).run [.insert { start := 0x2000, stop := 0x2FFF, type := .rom, romPtr := 3, buffOff := 0x2000 } (.req 1),
        .insert { start := 0x1000, stop := 0x1FFF, type := .ram, buffOff := 0x1000 } (.req 2)] = some s ∧
      ∃ s', s.erase 0x1000 0x2000 = some s' ∧ serves s 0x2800 ≠ some none ∧ serves s' 0x2800 = some none :=
  ⟨_, rfl, _, rfl, by decide, by decide⟩

/-- **C06 (partial)**: an address that is not in the range of a change keeps its backing ram/rom byte.  Missing: the
coincidence must be excluded, see `C06_lost_violation`. -/
theorem C06_backing_byte_preserved_partial (s s' : Space) (T : Tiled s) (op : Op) (hv : OpValid s.max op)
    (hc : ¬ Coincidence s op) (hs : s.step op = some s') (a : Nat) (ha : a ≤ s.max)
    (hout : a < Op.lo op ∨ Op.hi op < a) : hostByte s' a = hostByte s a := by
  obtain ⟨s1, hs1, T1, hm, h⟩ := step_spec T op hv hc
  rw [hs1] at hs; cases hs
  have h := h a ha
  rw [if_neg (by omega)] at h
  unfold serves at h
  unfold hostByte
  cases h1 : s'.search a with
  | none =>
    rw [h1] at h
    cases h2 : s.search a with
    | none => rfl
    | some r => rw [h2] at h; simp at h
  | some r1 =>
    rw [h1] at h
    cases h2 : s.search a with
    | none => rw [h2] at h; simp at h
    | some r2 =>
      rw [h2] at h
      simp only [Option.map_some, Option.some.injEq, payload] at h
      by_cases u1 : r1.type = .unmapped <;> by_cases u2 : r2.type = .unmapped
      · simp [u1, u2]
      · simp [u1, u2] at h
      · simp [u1, u2] at h
      · simp only [u1, u2, if_false, Option.some.injEq] at h
        injection h with _ _ ht _ _ _ _ hr hbo
        simp [ht, hr, hbo]

/-- A rom carved in two by an mmio page meets the hypotheses of C06 and keeps its last byte. -/
example : ∃ s s', (Space.create 0xFFFFFFFF).run
      [.insert { start := 0xF0000, stop := 0xFFFFF, type := .rom, romPtr := 1, buffOff := 0xF0000 } (.req 1)] = some s ∧
    s.step (.insert { start := 0xF4000, stop := 0xF4FFF, type := .mmio } (.req 2)) = some s' ∧
    hostByte s' 0xFFFFF = some (.rom 1 0xFFFF) ∧ ¬ Coincidence s (.insert { start := 0xF4000, stop := 0xF4FFF, type := .mmio } (.req 2)) := by
  refine ⟨_, _, rfl, rfl, by decide, ?_⟩
  rintro ⟨r, hr, h1, -⟩
  have : r = { start := 0xF0000, stop := 0xFFFFF, type := .rom, romPtr := 1, buffOff := 0xF0000 } := by
    have : (some r : Option Region) = some { start := 0xF0000, stop := 0xFFFFF, type := .rom, romPtr := 1, buffOff := 0xF0000 } := by
      rw [← hr]; decide
    simpa using this
  subst this
  simp [Op.hi] at h1

/-- **C06 is violated by the code** when the end of the new range is the start of an existing region: the bytes of the rom
behind the new region are not found any more. -/
theorem C06_lost_violation : ∃ (ops : List Op) (op : Op) (s s' : Space), (∀ o ∈ op :: ops, OpValid 0xFFFFFFFF o) ∧
    (Space.create 0xFFFFFFFF).run ops = some s ∧ s.step op = some s' ∧ Op.hi op < 0x2800 ∧ hostByte s' 0x2800 ≠ hostByte s 0x2800 := by
  refine ⟨[.insert { start := 0x2000, stop := 0x2FFF, type := .rom, romPtr := 3, buffOff := 0x2000 } (.req 100)],
    .insert { start := 0x1000, stop := 0x2000, type := .ram, buffOff := 0x1000 } (.req 101), _, _, by simp [OpValid], rfl, rfl, by decide, by decide⟩

end Verif.AS
