import Verif.Model.Snapshot
import Verif.Props.Tsc
import Verif.Props.Watch
/-
C41 and C42: snapshots.
-/
namespace Verif.Snapshot

/-- What a user can see of the machine that a snapshot should bring back (C41), without the TSC. -/
structure SameMachine (a b : Cpu) : Prop where
  regs : ∀ r, a.regs r = b.regs r
  msr : ∀ n, a.msr n = b.msr n
  flagsRes : a.lazyRes = b.lazyRes
  flagsAux : a.lazyAux = b.lazyAux
  ftop : a.ftop = b.ftop
  frp : a.frp = b.frp
  mxcsr : a.shadowMxcsr = b.shadowMxcsr
  microcode : a.microcode = b.microcode
  mode : a.hflags = b.hflags
  a20 : a.a20 = b.a20
  ram : a.ram = b.ram
  wpData : a.wpData = b.wpData
  wpIo : a.wpIo = b.wpIo

/-- C41, the full statement: after taking a snapshot of `c`, running anything (any later state `later` of a
cpu with the same ram) and restoring, the machine is the one snapshotted. -/
def RoundTrip (c : Cpu) (buf : List (BitVec 8)) (t : BitVec 64) (later : Cpu) (fn : Option Nat) (t' : BitVec 64) : Prop :=
  ∃ c1 s c2, save c t buf = .ok (c1, s) ∧ restore later s fn t' = .ok (c2, true) ∧
    SameMachine c2 c ∧ c2.halted = c.halted ∧
    ∀ now : BitVec 64, t'.toNat ≤ now.toNat → (Clock.rdtsc c2.tsc now).toNat =
      ((Clock.rdtsc c.tsc t).toNat + (now.toNat - t'.toNat) * 733333333 / 1000000) % 2 ^ 64

/-- The bits of the cached mode word that describe the machine (core/internal.hpp 62-103): level, code and stack size, protection, CR0.EM, NE,
MP and TS, CR4.OSFXSR, OSXMMEXCPT, VME and PVI, and the six segments whose base is 0. -/
def modeBits : List Nat := [0, 1, 2, 3, 4, 5, 7, 9, 10, 11, 15, 19, 20, 21, 22, 23, 24, 25, 26]

/-- States the library keeps: no trampoline about to start (the flag is set only between two blocks), the
watchpoint lists match the debug registers (C55). -/
structure Settled (c : Cpu) : Prop where
  hflags : ∀ j, j < 32 → c.hflags.getLsbD j = true → j ∈ modeBits
  data : c.wpData = [0, 1, 2, 3].filterMap (Watch.dataEntry (dbgOf c))
  io : c.wpIo = [0, 1, 2, 3].filterMap (Watch.ioEntry (dbgOf c))

theorem writeDr_dr (d : Watch.Dbg) (i : Nat) (v : BitVec 32) : (Watch.writeDr d i v).dr = fun j => if j = i then v else d.dr j := by
  unfold Watch.writeDr
  dsimp only
  split
  · split
    · split <;> rfl
    · rfl
  · split <;> rfl

/-- Reloading rebuilds the lists from the registers, whatever they were. -/
theorem reload_lists (c : Cpu) :
    (reloadWatch c).wpData = [0, 1, 2, 3].filterMap (Watch.dataEntry (dbgOf c)) ∧
    (reloadWatch c).wpIo = [0, 1, 2, 3].filterMap (Watch.ioEntry (dbgOf c)) := by
  have key : ∀ d4 : Watch.Dbg, (∀ i, i < 4 → d4.dr i = (dbgOf c).dr i) →
      (Watch.writeDr7 d4 (c.regs (.dr 7))).data = [0, 1, 2, 3].filterMap (Watch.dataEntry (dbgOf c)) ∧
      (Watch.writeDr7 d4 (c.regs (.dr 7))).io = [0, 1, 2, 3].filterMap (Watch.ioEntry (dbgOf c)) := by
    intro d4 h
    have e7 : (dbgOf c).dr7 = c.regs (.dr 7) := rfl
    have hd : ∀ i, i < 4 → Watch.dataEntry { d4 with dr7 := c.regs (.dr 7) } i = Watch.dataEntry (dbgOf c) i := by
      intro i hi
      simp only [Watch.dataEntry, Watch.range, h i hi, e7]
    have hi' : ∀ i, i < 4 → Watch.ioEntry { d4 with dr7 := c.regs (.dr 7) } i = Watch.ioEntry (dbgOf c) i := by
      intro i hi
      simp only [Watch.ioEntry, h i hi, e7]
    constructor
    · show [0, 1, 2, 3].filterMap (Watch.dataEntry { d4 with dr7 := c.regs (.dr 7) }) = _
      simp only [List.filterMap_cons, List.filterMap_nil, hd 0 (by omega), hd 1 (by omega), hd 2 (by omega), hd 3 (by omega)]
    · show [0, 1, 2, 3].filterMap (Watch.ioEntry { d4 with dr7 := c.regs (.dr 7) }) = _
      simp only [List.filterMap_cons, List.filterMap_nil, hi' 0 (by omega), hi' 1 (by omega), hi' 2 (by omega), hi' 3 (by omega)]
  refine key _ ?_
  intro i hi
  rw [writeDr_dr, writeDr_dr, writeDr_dr, writeDr_dr]
  rcases (by omega : i = 0 ∨ i = 1 ∨ i = 2 ∨ i = 3) with rfl | rfl | rfl | rfl <;> rfl

theorem saved_bit : ∀ j : Fin 32, savedMask.getLsbD j.val = decide (j.val ∈ modeBits) := by decide +kernel

theorem settled_saved {c : Cpu} (h : Settled c) : c.hflags &&& savedMask = c.hflags := by
  refine BitVec.eq_of_getLsbD_eq fun j hj => ?_
  rw [BitVec.getLsbD_and, saved_bit ⟨j, hj⟩]
  cases hb : c.hflags.getLsbD j with
  | false => rfl
  | true => simpa using h.hflags j hj hb

/-- The snapshot a successful save produces. -/
def snapOf (c : Cpu) (t : BitVec 64) (ram : List (BitVec 8)) : Snap where
  id := saveId
  size := structSize
  regs := c.regs
  msr := c.msr
  lazyRes := c.lazyRes
  lazyAux := c.lazyAux
  ftop := c.ftop
  frp := c.frp
  shadowMxcsr := c.shadowMxcsr
  halted := c.halted
  microcode := c.microcode
  hflags := c.hflags &&& savedMask
  a20 := c.a20
  tscOffset := Clock.rdtsc c.tsc t
  ramId := saveId
  ram := ram

theorem save_ok (c : Cpu) (t : BitVec 64) (buf : List (BitVec 8)) (h1 : c.ramSize ≤ c.ram.length) (h2 : c.ramSize ≤ buf.length) :
    save c t buf = .ok (c, snapOf c t (c.ram.take c.ramSize ++ buf.drop c.ramSize)) := by
  unfold save
  dsimp only
  rw [if_pos ⟨h1, h2⟩]
  have hoff := Clock.save_eq c.tsc t
  unfold Clock.tscSave at hoff
  dsimp only at hoff
  have hr : (fun r => if r = Reg.edx then c.regs .edx else if r = Reg.eax then c.regs .eax else
      if r = Reg.edx then (Clock.edxEax (Clock.rdtsc c.tsc t)).1 else if r = Reg.eax then (Clock.edxEax (Clock.rdtsc c.tsc t)).2
        else c.regs r) = c.regs := by
    funext r
    by_cases h : r = .edx
    · simp [h]
    · by_cases h' : r = .eax
      · simp [h']
      · simp [h, h']
  simp only [hr, if_true, reduceCtorEq, if_false, hoff]
  rfl

/-- C41: taking a snapshot does not change the machine. -/
theorem C41_save_changes_nothing (c c1 : Cpu) (t : BitVec 64) (buf : List (BitVec 8)) (s : Snap)
    (h : save c t buf = .ok (c1, s)) : c1 = c := by
  by_cases hc : c.ramSize ≤ c.ram.length ∧ c.ramSize ≤ buf.length
  · rw [save_ok c t buf hc.1 hc.2] at h
    cases h; rfl
  · unfold save at h
    dsimp only at h
    rw [if_neg hc] at h
    cases h

/-- C41, the part that holds: for every state, everything that runs in between, and every client buffer of
exactly the allocation's size, everything comes back except the halted state. Missing: the halted state
(violation), buffers of the ram size the client asked for and ram that needed aligning (violations). -/
theorem C41_round_trip_partial (c : Cpu) (hc : Settled c) (buf : List (BitVec 8)) (hram : c.ram.length = c.ramSize)
    (hbuf : buf.length = c.ramSize) (t : BitVec 64) (later : Cpu) (hl : later.ram.length = c.ramSize) (fn : Option Nat)
    (t' : BitVec 64) (hhalt : later.halted = c.halted) : RoundTrip c buf t later fn t' := by
  have hr : c.ram.take c.ramSize ++ buf.drop c.ramSize = c.ram := by
    rw [List.take_of_length_le (by omega), List.drop_of_length_le (by omega), List.append_nil]
  have hs := save_ok c t buf (by omega) (by omega)
  rw [hr] at hs
  let c1 : Cpu := { later with
      regs := c.regs, msr := c.msr, lazyRes := c.lazyRes, lazyAux := c.lazyAux, ftop := c.ftop, frp := c.frp,
      shadowMxcsr := c.shadowMxcsr, halted := later.halted, microcode := c.microcode, hflags := c.hflags &&& savedMask,
      cpuFlags := later.cpuFlags &&& preservedMask, a20 := c.a20, tsc := ⟨Clock.rdtsc c.tsc t, t'⟩,
      ram := c.ram ++ later.ram.drop c.ram.length, intFn := fn, ints := 0#32 }
  have hload : load later (snapOf c t c.ram) fn t' = .ok { reloadWatch c1 with cached := 0, tlb := 0 } := by
    unfold load
    rw [if_neg (by simp [snapOf]), if_pos (by simp only [snapOf]; omega)]
    rfl
  have hlist := reload_lists c1
  refine ⟨c, _, { reloadWatch c1 with cached := 0, tlb := 0 }, hs, by simp only [restore, hload], ?_, hhalt, ?_⟩
  · refine ⟨fun _ => rfl, fun _ => rfl, rfl, rfl, rfl, rfl, rfl, rfl, settled_saved hc, rfl, ?_, ?_, ?_⟩
    · show c.ram ++ later.ram.drop c.ram.length = c.ram
      rw [List.drop_of_length_le (by omega), List.append_nil]
    · exact hlist.1.trans hc.data.symm
    · exact hlist.2.trans hc.io.symm
  · intro now hn
    exact Clock.rdtsc_toNat _ now hn

/-- C41: after a successful restore nothing translated or cached from before survives, and no interrupt is
pending. -/
theorem C41_no_stale_code (c c' : Cpu) (s : Snap) (fn : Option Nat) (t : BitVec 64) (h : restore c s fn t = .ok (c', true)) :
    c'.cached = 0 ∧ c'.tlb = 0 ∧ c'.ints = 0#32 := by
  unfold restore load at h
  by_cases h1 : s.id ≠ saveId ∨ s.ramId ≠ saveId ∨ s.size ≠ structSize
  · rw [if_pos h1] at h; simp at h
  · rw [if_neg h1] at h
    by_cases h2 : s.ram.length ≤ c.ram.length
    · rw [if_pos h2] at h
      simp only [Res.ok.injEq, Prod.mk.injEq, and_true] at h
      subst h
      exact ⟨rfl, rfl, rfl⟩
    · rw [if_neg h2] at h; cases h

/-- C41: a restore keeps the options the client chose on this cpu - the disassembly syntax (bits 0 to 2), the timeout (3), single stepping (10), the
debugger (11) and the halt option (12) - and clears every other flag, such as a pending request to disassemble. -/
theorem C41_options (c c' : Cpu) (s : Snap) (fn : Option Nat) (t : BitVec 64) (h : restore c s fn t = .ok (c', true)) (j : Nat) (hj : j < 32) :
    c'.cpuFlags.getLsbD j = (c.cpuFlags.getLsbD j && decide (j ∈ [0, 1, 2, 3, 10, 11, 12])) := by
  have hm : ∀ j : Fin 32, preservedMask.getLsbD j.val = decide (j.val ∈ [0, 1, 2, 3, 10, 11, 12]) := by decide +kernel
  rw [← hm ⟨j, hj⟩, ← BitVec.getLsbD_and]
  unfold restore load at h
  by_cases h1 : s.id ≠ saveId ∨ s.ramId ≠ saveId ∨ s.size ≠ structSize
  · rw [if_pos h1] at h; simp at h
  · rw [if_neg h1] at h
    by_cases h2 : s.ram.length ≤ c.ram.length
    · rw [if_pos h2] at h
      simp only [Res.ok.injEq, Prod.mk.injEq, and_true] at h
      subst h
      rfl
    · rw [if_neg h2] at h; cases h

/-- A small machine: not halted, 2 bytes of ram asked for (plus the 16 the library adds). -/
def demo (halted : Bool) : Cpu :=
  { regs := fun r => if r = .eax then 0x11223344#32 else if r = .dr 7 then 0x10401#32 else if r = .dr 0 then 0x1001#32 else 5#32
    msr := fun n => BitVec.ofNat 64 n, lazyRes := 0x100#32, lazyAux := 1#32, ftop := 3#16, frp := 0x37F#16
    shadowMxcsr := 0x1F80#32, halted := halted, microcode := true, hflags := 0x14#32, cpuFlags := 0x88#32
    a20 := 0xFFEFFFFF#32, tsc := ⟨7#64, 100#64⟩, ram := (newRam 2 1 0).1, ramSize := (newRam 2 1 0).2, intFn := some 1
    ints := 512#32, wpData := [⟨0, 0x1001#32, 0x1001#32⟩], wpIo := [], cached := 3, tlb := 9 }

/-- C41 fails: a machine snapshotted while halted and restored while not halted (or the other way round)
keeps the wrong state: support.cpp 132 assigns the field to itself. -/
theorem C41_halted_violation : ¬RoundTrip (demo true) (List.replicate 18 0#8) 200#64 (demo false) none 300#64 := by
  rintro ⟨c1, s, c2, h1, h2, _, h3, _⟩
  rw [save_ok _ _ _ (by decide) (by decide)] at h1
  cases h1
  have hl : load (demo false) (snapOf (demo true) 200#64
      ((demo true).ram.take (demo true).ramSize ++ (List.replicate 18 0#8).drop (demo true).ramSize)) none 300#64 = .ok c2 := by
    unfold restore at h2
    split at h2
    · rename_i c' he
      rw [he]
      simp only [Res.ok.injEq, Prod.mk.injEq, and_true] at h2
      rw [h2]
    · simp at h2
    · cases h2
  unfold load at hl
  rw [if_neg (by simp [snapOf]), if_pos (by decide)] at hl
  simp only [Res.ok.injEq] at hl
  subst hl
  revert h3
  decide

/-- C41 fails: with a client buffer of the ram size given to cpu_new, taking the snapshot writes past its
end, for every ram size and alignment. -/
theorem C41_client_buffer_violation (c : Cpu) (ramsize align bias : Nat) (hs : c.ramSize = (newRam ramsize align bias).2) (t : BitVec 64)
    (buf : List (BitVec 8)) (hbuf : buf.length = ramsize) : save c t buf = .ub := by
  unfold save
  dsimp only
  rw [if_neg]
  rw [hs, hbuf]
  simp only [newRam]
  omega

/-- C41 fails: when the ram buffer had to be moved up to its alignment, taking a snapshot reads past the end
of the allocation, whatever the client's buffer. -/
theorem C41_aligned_ram_violation (c : Cpu) (ramsize align bias : Nat) (hb0 : 0 < bias) (hb : bias < align)
    (hr : c.ram = (newRam ramsize align bias).1) (hs : c.ramSize = (newRam ramsize align bias).2) (t : BitVec 64)
    (buf : List (BitVec 8)) : save c t buf = .ub := by
  unfold save
  dsimp only
  rw [if_neg]
  rw [hs, hr]
  simp only [newRam, List.length_replicate]
  omega

/-! ## C42 -/

/-- C42, specification: a header the library wrote itself. -/
structure GoodHeader (s : Snap) : Prop where
  id : s.id.toNat = 12
  ramId : s.ramId.toNat = 12
  size : s.size = structSize

/-- C42: a snapshot with a wrong id or size is rejected and the cpu is unchanged. -/
theorem C42_bad_header_rejected (c : Cpu) (s : Snap) (h : ¬GoodHeader s) (fn : Option Nat) (t : BitVec 64) :
    restore c s fn t = .ok (c, false) := by
  have : s.id ≠ saveId ∨ s.ramId ≠ saveId ∨ s.size ≠ structSize := by
    by_cases h1 : s.id = saveId
    · by_cases h2 : s.ramId = saveId
      · by_cases h3 : s.size = structSize
        · exact absurd ⟨by rw [h1]; rfl, by rw [h2]; rfl, h3⟩ h
        · exact .inr (.inr h3)
      · exact .inr (.inl h2)
    · exact .inl h1
  simp only [restore, load, if_pos this]

/-- C42: and only those: a good header with a ram image of this cpu's size is accepted. -/
theorem C42_good_header_accepted (c : Cpu) (s : Snap) (h : GoodHeader s) (hr : s.ram.length = c.ram.length) (fn : Option Nat) (t : BitVec 64) :
    ∃ c', restore c s fn t = .ok (c', true) := by
  have h1 : s.id = saveId := BitVec.eq_of_toNat_eq (by rw [h.id]; rfl)
  have h2 : s.ramId = saveId := BitVec.eq_of_toNat_eq (by rw [h.ramId]; rfl)
  simp only [restore, load]
  rw [if_neg (by simp [h1, h2, h.size]), if_pos (by omega)]
  exact ⟨_, rfl⟩

/-- C42, the gap: the size of the ram image is not checked. An image larger than the cpu's ram (from a cpu
created with more ram) writes past the end of the ram buffer instead of being rejected. -/
theorem C42_ram_size_violation (c : Cpu) (s : Snap) (h : GoodHeader s) (hr : c.ram.length < s.ram.length) (fn : Option Nat)
    (t : BitVec 64) : restore c s fn t = .ub := by
  have h1 : s.id = saveId := BitVec.eq_of_toNat_eq (by rw [h.id]; rfl)
  have h2 : s.ramId = saveId := BitVec.eq_of_toNat_eq (by rw [h.ramId]; rfl)
  simp only [restore, load]
  rw [if_neg (by simp [h1, h2, h.size]), if_neg (by omega)]

/-- The hypotheses are met: the demo machine with a watchpoint, ram that needs no aligning, a later state that differs. -/
example : Settled (demo false) ∧ (demo false).ram.length = (demo false).ramSize ∧ (List.replicate 18 0#8).length = (demo false).ramSize ∧
    ({ demo false with regs := fun _ => 0#32, ram := List.replicate 18 0xFF#8, a20 := 0xFFFFFFFF#32 } : Cpu).ram.length = (demo false).ramSize := by
  refine ⟨⟨by intro j hj; revert hj j; decide, by decide, by decide⟩, by decide, by decide, by decide⟩

example : ∃ s : Snap, GoodHeader s ∧ ¬GoodHeader { s with id := 11#32 } ∧ s.ram.length = (demo false).ram.length := by
  refine ⟨snapOf (demo false) 1#64 (List.replicate 18 1#8), ⟨rfl, rfl, rfl⟩, ?_, by decide⟩
  intro h
  have := h.id
  revert this
  decide

end Verif.Snapshot
