/-
C04, C07, C08, C09, C10, C56: the region api, deferred changes, a20.
-/
import Verif.Lemmas.RegionApi
import Verif.Spec.RegionApi

namespace Verif.Region
open Verif.AS Verif.AS.Spec Verif.Region.Spec

/-! ### C04 -/

theorem orDefault_eq (f : Fn) : Fn.orDefault f = orDflt f := by cases f <;> rfl

theorem mmioDefaults_eq (h : Handlers) : mmioDefaults h = given h := by
  simp only [mmioDefaults, given, orDefault_eq]

/-- **C04 (partial), parameter checks**: as long as start + size does not exceed 64 bits, a request is answered with
invalid_parameter iff the documentation calls it invalid, and then nothing changes.  Missing: sizes for which start + size
wraps, see `C04_wrap_violation`. -/
theorem C04_parameter_checks_partial (c c' : Cpu) (r : Req) (st : Status) (hnw : NoWrap r) (hs : c.step r = some (c', st)) :
    (st = .invalidParameter ↔ Rejected c r) ∧ (st = .invalidParameter → c' = c) := by
  cases r with
  | ram s z i =>
    simp only [Cpu.step, Cpu.initRam] at hs
    split at hs
    · cases hs; simp [Rejected, *]
    · simp only [Option.bind_eq_bind, Option.bind_eq_some_iff, Option.pure_def, Option.some.injEq, Prod.mk.injEq] at hs
      obtain ⟨c1, h1, rfl, rfl⟩ := hs
      simp [Rejected, *]
  | rom s z b i =>
    simp only [Cpu.step, Cpu.initRom] at hs
    split at hs
    · cases hs; simp [Rejected]
    · split at hs
      · cases hs; simp [Rejected, *]
      · simp only [Option.bind_eq_bind, Option.bind_eq_some_iff, Option.pure_def, Option.some.injEq, Prod.mk.injEq] at hs
        obtain ⟨c1, h1, rfl, rfl⟩ := hs
        simp [Rejected, *]
  | io s z sp hd o i u =>
    simp only [Cpu.step, Cpu.initIo] at hs
    split at hs
    · next hu =>
      split at hs
      · next hi => cases hs; simp [Rejected, hu, hi]
      · next hi =>
        split at hs
        · next h12 => cases hs; simp [Rejected, hu, hi]; omega
        · split at hs
          · next h3 => cases hs; simp [Rejected, hi, h3]
          · next h12 h3 => cases hs; simp only [Rejected]; refine ⟨⟨fun _ => Or.inl ⟨hu, Or.inr (by omega)⟩, fun _ => trivial⟩, fun _ => trivial⟩
    · next hu =>
      have hu : u = 0 := by omega
      subst hu
      split at hs
      · next hz => cases hs; simp [Rejected, hz]
      · next hz =>
        split at hs
        · next hsp =>
          have hw : (s + z) % u64 = s + z := Nat.mod_eq_of_lt hnw
          split at hs
          · next hbad => cases hs; rw [hw] at hbad; simp [Rejected, hz, hsp]; omega
          · next hgood =>
            rw [hw] at hgood
            simp only [Option.bind_eq_bind, Option.bind_eq_some_iff, Option.pure_def, Option.some.injEq, Prod.mk.injEq] at hs
            obtain ⟨c1, h1, rfl, rfl⟩ := hs
            simp [Rejected, hz, hsp]; omega
        · next hsp =>
          simp only [Option.bind_eq_bind, Option.bind_eq_some_iff, Option.pure_def, Option.some.injEq, Prod.mk.injEq] at hs
          obtain ⟨c1, h1, rfl, rfl⟩ := hs
          simp [Rejected, hz, hsp]
  | alias a s z i =>
    simp only [Cpu.step, Cpu.initAlias] at hs
    split at hs
    · next hz => cases hs; simp [Rejected, hz]
    · next hz =>
      have hw := wrap_eq (s := s) (z := z) (by omega) hnw.2
      simp only [Option.bind_eq_bind, Option.bind_eq_some_iff] at hs
      obtain ⟨n, hn, hs⟩ := hs
      have hsr : c.mem.search s = some n.reg := by simp [Space.search, hn]
      rw [hw] at hs
      split at hs
      · next hg =>
        simp only [Option.bind_eq_some_iff, Option.pure_def, Option.some.injEq, Prod.mk.injEq] at hs
        obtain ⟨c1, h1, rfl, rfl⟩ := hs
        simp only [Rejected, hz, false_or, hsr, Option.some.injEq]
        refine ⟨⟨by simp, fun h => absurd ⟨_, rfl, hg⟩ h⟩, by simp⟩
      · next hg =>
        cases hs
        simp only [Rejected, hz, false_or, hsr, Option.some.injEq]
        refine ⟨⟨fun _ => ?_, fun _ => trivial⟩, fun _ => trivial⟩
        rintro ⟨r, rfl, h⟩
        exact hg h
  | destroy s z sp i =>
    simp only [Cpu.step, Cpu.destroy] at hs
    split at hs
    · simp only [Option.bind_eq_bind, Option.bind_eq_some_iff, Option.pure_def, Option.some.injEq, Prod.mk.injEq] at hs
      obtain ⟨c1, h1, rfl, rfl⟩ := hs
      simp [Rejected]
    · simp only [Option.bind_eq_bind, Option.bind_eq_some_iff, Option.pure_def, Option.some.injEq, Prod.mk.injEq] at hs
      obtain ⟨c1, h1, rfl, rfl⟩ := hs
      simp [Rejected]
  | a20 cl i => simp only [Cpu.step, Option.some.injEq, Prod.mk.injEq] at hs; simp [Rejected, ← hs.2]
  | service =>
    simp only [Cpu.step, Option.map_eq_some_iff, Prod.mk.injEq] at hs
    obtain ⟨c1, h1, rfl, rfl⟩ := hs
    simp [Rejected]
  | exec => simp only [Cpu.step, Option.some.injEq, Prod.mk.injEq] at hs; simp [Rejected, ← hs.2]

/-- A rejected and an accepted request. -/
example : ∃ c, Cpu.init.step (.io 0xFFF0 0x11 true {} 0 false 0) = some (c, .invalidParameter) ∧
    ∃ c', Cpu.init.step (.io 0xFFF0 0x10 true {} 0 false 0) = some (c', .success) := by
  refine ⟨_, rfl, _, rfl⟩

/-- **C04 (partial), clamping**: an immediate request for [start, start + size) makes exactly the addresses of that range that
exist serve the new region (or nothing, for a destruction); every other address is served as before.  Missing: the coincidence
of C01, and start + size above 2^64. -/
theorem C04_region_covers_exactly_partial (c : Cpu) (T : Tiled c.mem) (hmax : c.mem.max = maxAddr) (r : Req)
    (start size : Nat) (p : Option Region) (heff : memEffect r = some (start, size, p)) (hsize : 0 < size)
    (hstart : start ≤ maxAddr) (hnw : start + size < 2 ^ 64)
    (hco : ¬ Coincidence c.mem (.erase start (min (start + size - 1) maxAddr))) :
    ∃ c', c.step r = some (c', .success) ∧ Tiled c'.mem ∧
      ∀ a, a ≤ maxAddr → serves c'.mem a = if start ≤ a ∧ a < start + size then some p else serves c.mem a := by
  have he : endOf maxAddr start size = min (start + size - 1) maxAddr := endOf_eq hsize hnw
  have key : ∀ (op : Op), Op.lo op = start → Op.hi op = endOf maxAddr start size → Op.puts op = p → ∀ d : Cpu, d.mem = c.mem →
      ∃ c', d.submit op false = some c' ∧ Tiled c'.mem ∧
      ∀ a, a ≤ maxAddr → serves c'.mem a = if start ≤ a ∧ a < start + size then some p else serves c.mem a := by
    intro op h1 h2 h3 d hd
    have hv : OpValid c.mem.max op := by
      cases op <;> simp only [OpValid, Op.lo, Op.hi, hmax] at h1 h2 ⊢ <;> omega
    have hc : ¬ Coincidence c.mem op := by
      rintro ⟨q, hq⟩
      rw [h1, h2, he] at hq
      exact hco ⟨q, hq⟩
    obtain ⟨m, hm, T', hmx, hserv⟩ := step_spec T op hv hc
    refine ⟨Cpu.clearCaches { d with mem := m }, ?_, T', ?_⟩
    · simp [Cpu.submit, hd, hm]
    · intro a ha
      show serves m a = _
      rw [hserv a (by omega), h1, h2, h3, he]
      have : (start ≤ a ∧ a ≤ min (start + size - 1) maxAddr) ↔ (start ≤ a ∧ a < start + size) := by omega
      simp only [this]
  unfold memEffect at heff
  split at heff
  · cases heff
    obtain ⟨c', h1, h2⟩ := key (.insert { start := start, stop := endOf maxAddr start size, type := .ram, buffOff := start } (.req c.nextReq)) (by simp only [Op.lo]) (by simp only [Op.hi]) (by simp [Op.puts, payload])
      { c with nextReq := c.nextReq + 1 } rfl
    refine ⟨c', ?_, h2⟩
    simp [Cpu.step, Cpu.initRam, Nat.ne_of_gt hsize, h1]
  · next b =>
    cases heff
    obtain ⟨c', h1, h2⟩ := key (.insert { start := start, stop := endOf maxAddr start size, type := .rom, romPtr := b, buffOff := start } (.req c.nextReq)) (by simp only [Op.lo]) (by simp only [Op.hi]) (by simp [Op.puts, payload])
      { c with nextReq := c.nextReq + 1 } rfl
    refine ⟨c', ?_, h2⟩
    simp [Cpu.step, Cpu.initRom, Nat.ne_of_gt hsize, h1]
  · next h o =>
    cases heff
    obtain ⟨c', h1, h2⟩ := key (.insert { start := start, stop := endOf maxAddr start size, type := .mmio, handlers := mmioDefaults h, opaq := o } (.req c.nextReq)) (by simp only [Op.lo]) (by simp only [Op.hi])
      (by simp [Op.puts, payload, mmioDefaults_eq]) { c with nextReq := c.nextReq + 1 } rfl
    refine ⟨c', ?_, h2⟩
    simp [Cpu.step, Cpu.initIo, Nat.ne_of_gt hsize, h1]
  · cases heff
    obtain ⟨c', h1, h2⟩ := key (.erase start (endOf maxAddr start size)) (by simp only [Op.lo]) (by simp only [Op.hi]) (by simp only [Op.puts]) c rfl
    refine ⟨c', ?_, h2⟩
    simp [Cpu.step, Cpu.destroy, h1]
  · cases heff

/-- A region of 8 GiB is clamped to the end of the space; address 0xFFFFFFFF is served by it. -/
example : ∃ c', Cpu.init.step (.ram 0x100000 0x200000000 false) = some (c', .success) ∧
    serves c'.mem 0xFFFFFFFF = some (some { start := 0, stop := 0, type := .ram, buffOff := 0x100000 }) ∧
    serves c'.mem 0xFFFFF = some none := by
  obtain ⟨c', h1, -, h2⟩ := C04_region_covers_exactly_partial Cpu.init (tiled_create _) rfl (.ram 0x100000 0x200000000 false)
    0x100000 0x200000000 _ rfl (by decide) (by decide) (by decide)
    (by
      rintro ⟨r, hr, h, -⟩
      have h0 : Cpu.init.mem.search (Op.hi (.erase 0x100000 (min (0x100000 + 0x200000000 - 1) maxAddr))) = some { start := 0, stop := maxAddr } := by decide
      rw [h0] at hr
      cases hr
      exact absurd h (by decide))
  refine ⟨c', h1, ?_, ?_⟩
  · rw [h2 _ (by decide), if_pos (by decide)]
  · rw [h2 _ (by decide), if_neg (by decide)]
    decide

/-- **C04 is violated by the code** when start + size wraps around 2^64: the port check is passed, success is returned, and
the new region ends before it starts; port 0x1800, inside the requested range, does not get the handlers. -/
theorem C04_wrap_violation :
    ∃ c', Cpu.init.step (.io 0x1000 (2 ^ 64 - 0x800) true { r8 := .client 1 } 0 false 0) = some (c', .success) ∧
      Rejected Cpu.init (.io 0x1000 (2 ^ 64 - 0x800) true { r8 := .client 1 } 0 false 0) ∧ ¬ Covers c'.io := by
  refine ⟨_, rfl, by simp [Rejected], ?_⟩
  intro h
  obtain ⟨r, hr, hc⟩ := h 0x1000 (by decide)
  have : r.stop = 0x7FF := by
    have h2 : (some r : Option Region).map (·.stop) = some 0x7FF := by rw [← hr]; decide
    simpa using h2
  have := hc.2
  omega

/-- **C04 is violated by the code**: mem_destroy_region accepts size 0, and destroying nothing at 0x1000 unmaps all the ram
from 0x1000 up (and merges it with the unmapped space behind). -/
theorem C04_destroy_zero_violation :
    ∃ c c', Cpu.init.run [.ram 0 0x10000 false] = some c ∧ c.step (.destroy 0x1000 0 false false) = some (c', .success) ∧
      serves c.mem 0x8000 = some (some { start := 0, stop := 0, type := .ram }) ∧ serves c'.mem 0x8000 = some none := by
  refine ⟨_, _, rfl, rfl, ?_, ?_⟩ <;> decide

end Verif.Region
