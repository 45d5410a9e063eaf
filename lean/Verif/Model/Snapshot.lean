import Verif.Model.Clock
import Verif.Model.Watch
/-
Snapshots of a cpu that is not running: support.cpp 12-13, 93-156 (cpu_save_state, cpu_load_state),
interface.cpp 489-575 (cpu_take_snapshot, cpu_restore_snapshot, branch at 502-510), 117-160 (the ram
buffer made by cpu_new), include/lib86cpu.hpp 74-94.

The register file is a map from register names to 32 bit words; everything in regs_t that needs no name
here is `other n` (regs_t is copied as a whole). Code cache and tlb are represented by their number of
entries (only "empty" matters here). The multi-thread part of the handler is in Model/Threads.
-/
namespace Verif.Snapshot

open Clock (Tsc)

/-- Words of regs_t (core/registers.hpp). `other` covers the general, segment, control, fpu and sse
registers not named. -/
inductive Reg | eax | edx | cr4 | eflags | dr (i : Fin 8) | other (n : Nat)
  deriving DecidableEq, Repr

/-- The fields of cpu_t and cpu_ctx_t that saving and loading read or write. -/
structure Cpu where
  regs : Reg → BitVec 32
  msr : Nat → BitVec 64
  lazyRes : BitVec 32
  lazyAux : BitVec 32
  ftop : BitVec 16
  frp : BitVec 16
  shadowMxcsr : BitVec 32
  halted : Bool
  microcode : Bool
  hflags : BitVec 32
  cpuFlags : BitVec 32
  a20 : BitVec 32
  tsc : Tsc
  /-- the bytes of the allocation that lie at or after the pointer `cpu->ram` -/
  ram : List (BitVec 8)
  /-- `cpu->ram_size`: the number of bytes allocated (interface.cpp 136) -/
  ramSize : Nat
  /-- does the user have an interrupt callback, and which -/
  intFn : Option Nat
  ints : BitVec 32
  wpData : List (Watch.Wp 32)
  wpIo : List (Watch.Wp 16)
  cached : Nat
  tlb : Nat

/-- cpu_save_state_t and ram_save_state_t (include/lib86cpu.hpp 74-94). -/
structure Snap where
  id : BitVec 32
  size : BitVec 32
  regs : Reg → BitVec 32
  msr : Nat → BitVec 64
  lazyRes : BitVec 32
  lazyAux : BitVec 32
  ftop : BitVec 16
  frp : BitVec 16
  shadowMxcsr : BitVec 32
  halted : Bool
  microcode : Bool
  hflags : BitVec 32
  a20 : BitVec 32
  tscOffset : BitVec 64
  ramId : BitVec 32
  ram : List (BitVec 8)

/-- SAVE_STATE_ID (support.cpp 17). -/
def saveId : BitVec 32 := 12#32

/-- sizeof(cpu_save_state_t): its value does not matter, only that it is a constant. -/
def structSize : BitVec 32 := 1024#32

/-- HFLG_SAVED_MASK (core/internal.hpp 107). -/
def savedMask : BitVec 32 := 0x07F88EBF#32

/-- CPU_PRESERVED_FLG_MASK (support.hpp 18). -/
def preservedMask : BitVec 32 := 0x1C0F#32

/-- Result of a call: undefined behaviour (out of bounds access) is explicit. -/
inductive Res (α : Type) | ok (a : α) | invalid | ub
  deriving DecidableEq, Repr

/-- interface.cpp 132-152: the ram part of a new cpu. The allocation has `ramsize + 16 + align - 1` bytes,
`bias` (smaller than `align`) of them before the aligned pointer. -/
def newRam (ramsize align bias : Nat) : List (BitVec 8) × Nat :=
  (List.replicate (ramsize + 16 + align - 1 - bias) 0#8, ramsize + 16 + align - 1)

/-- support.cpp 93-118: `now` is the clock reading, `buf` the client's ram_state->ram. The copy reads
`ram_size` bytes from `cpu->ram` and writes them to the client's vector. EAX and EDX are overwritten by
cpu_rdtsc_helper and put back. -/
def save (c : Cpu) (now : BitVec 64) (buf : List (BitVec 8)) : Res (Cpu × Snap) :=
  let tsc := Clock.rdtsc c.tsc now
  let (edx, eax) := Clock.edxEax tsc
  let r1 : Reg → BitVec 32 := fun r => if r = .edx then edx else if r = .eax then eax else c.regs r
  let off := ((r1 .edx).setWidth 64 <<< 32) ||| (r1 .eax).setWidth 64
  let r2 : Reg → BitVec 32 := fun r => if r = .edx then c.regs .edx else if r = .eax then c.regs .eax else r1 r
  if c.ramSize ≤ c.ram.length ∧ c.ramSize ≤ buf.length then
    .ok ({ c with regs := r2 },
      { id := saveId, size := structSize, regs := c.regs, msr := c.msr, lazyRes := c.lazyRes, lazyAux := c.lazyAux,
        ftop := c.ftop, frp := c.frp, shadowMxcsr := c.shadowMxcsr, halted := c.halted, microcode := c.microcode,
        hflags := c.hflags &&& savedMask, a20 := c.a20, tscOffset := off, ramId := saveId,
        ram := c.ram.take c.ramSize ++ buf.drop c.ramSize })
  else .ub

/-- The debug state of the watchpoint model (Model/Watch) in this register file. -/
def dbgOf (c : Cpu) : Watch.Dbg :=
  { dr := fun i => if h : i < 8 then c.regs (.dr ⟨i, h⟩) else 0#32
    dr6 := c.regs (.dr 6), dr7 := c.regs (.dr 7), de := (c.regs .cr4).getLsbD 3, rf := (c.regs .eflags).getLsbD 16
    data := c.wpData, io := c.wpIo, trap := c.ints.getLsbD 8 }

/-- support.cpp 144-148: update_drN_helper for 0..3 and 7 with the registers just loaded. -/
def reloadWatch (c : Cpu) : Cpu :=
  let d0 := dbgOf c
  let d1 := Watch.writeDr d0 0 (c.regs (.dr 0))
  let d2 := Watch.writeDr d1 1 (c.regs (.dr 1))
  let d3 := Watch.writeDr d2 2 (c.regs (.dr 2))
  let d4 := Watch.writeDr d3 3 (c.regs (.dr 3))
  let d5 := Watch.writeDr7 d4 (c.regs (.dr 7))
  { c with wpData := d5.data, wpIo := d5.io }

/-- support.cpp 120-156. The ram copy writes the whole of the snapshot's vector at `cpu->ram`. -/
def load (c : Cpu) (s : Snap) (intFn : Option Nat) (now : BitVec 64) : Res Cpu :=
  if s.id ≠ saveId ∨ s.ramId ≠ saveId ∨ s.size ≠ structSize then .invalid
  else if s.ram.length ≤ c.ram.length then
    let c1 := { c with
      regs := s.regs, msr := s.msr, lazyRes := s.lazyRes, lazyAux := s.lazyAux, ftop := s.ftop, frp := s.frp,
      shadowMxcsr := s.shadowMxcsr, halted := c.halted, microcode := s.microcode, hflags := s.hflags,
      cpuFlags := c.cpuFlags &&& preservedMask, a20 := s.a20, tsc := ⟨s.tscOffset, now⟩,
      ram := s.ram ++ c.ram.drop s.ram.length, intFn := intFn, ints := 0#32 }
    let c2 := reloadWatch c1
    .ok { c2 with cached := 0, tlb := 0 }
  else .ub

/-- interface.cpp 502-510 and 568-572 for a cpu that is not running: status and state after
cpu_restore_snapshot. -/
def restore (c : Cpu) (s : Snap) (intFn : Option Nat) (now : BitVec 64) : Res (Cpu × Bool) :=
  match load c s intFn now with
  | .ok c' => .ok (c', true)
  | .invalid => .ok (c, false)
  | .ub => .ub

end Verif.Snapshot
