/-
Model of the region api (lib86cpu/interface.cpp), of cpu_set_a20 and of the part of cpu_do_int
(core/translate.cpp 1356-1455) that services CPU_HANDLER_INT, CPU_A20_INT and CPU_REGION_INT.

Addresses are `Nat` below 2^32, sizes `Nat` below 2^64, sums are reduced modulo 2^64 as in C++.
`none` is undefined behaviour inside address_space.  The TLB and the code cache are abstracted to `cache`: what the
guest has cached of the memory map and of the a20 mask (`none` after tc_clear_cache_and_tlb).
Not modelled here: suspend, abort, debug traps (see Model/Ints), the XBOX rom path (interface.cpp 857-867).
-/
import Verif.Model.AddressSpace

namespace Verif.Region
open Verif.AS

def u64 : Nat := 2 ^ 64
def maxAddr : Nat := 0xFFFFFFFF
def maxPort : Nat := 0xFFFF

/-- region_update_info_t, lib86cpu_priv.hpp 100-105. -/
structure Update where
  start : Nat
  ioSpace : Bool
  handlers : Handlers
  opaq : Nat
  deriving DecidableEq, Repr

/-- The fields of cpu_t the region api works on (lib86cpu_priv.hpp 222-262). -/
structure Cpu where
  mem : Space
  io : Space
  changed : List Op            -- regions_changed
  updated : List Update        -- regions_updated
  pRegion : Bool               -- CPU_REGION_INT pending
  pHandler : Bool              -- CPU_HANDLER_INT pending
  pA20 : Bool                  -- CPU_A20_INT pending
  a20 : BitVec 32              -- a20_mask
  newA20 : BitVec 32           -- new_a20
  nextReq : Nat                -- identity of the next region object made by the client api
  cache : Option (Space × BitVec 32)

/-- State after cpu_new (interface.cpp 170-171, translate.cpp 416). -/
def Cpu.init : Cpu :=
  { mem := Space.create maxAddr, io := Space.create maxPort, changed := [], updated := [],
    pRegion := false, pHandler := false, pA20 := false, a20 := 0xFFFFFFFF, newA20 := 0, nextReq := 0, cache := none }

inductive Status where
  | success | invalidParameter
  deriving DecidableEq, Repr

/-- `start + size - 1` in 64 bit arithmetic. -/
def sumLess1 (start size : Nat) : Nat := if (start + size) % u64 = 0 then u64 - 1 else (start + size) % u64 - 1

/-- `std::min(start + size - 1, (uint64_t)max)` in 64 bit arithmetic (interface.cpp 669, 750, 765, 811, 850, 892, 896). -/
def endOf (max start size : Nat) : Nat := min (sumLess1 start size) max

def Fn.orDefault : Fn → Fn
  | .null => .dflt
  | f => f

/-- interface.cpp 708-715 / 751-756: the six pmio callbacks.  The 64 bit ones are passed through (`update` path) . -/
def pmioDefaults (h : Handlers) : Handlers :=
  { h with r8 := Fn.orDefault h.r8, r16 := Fn.orDefault h.r16, r32 := Fn.orDefault h.r32,
           w8 := Fn.orDefault h.w8, w16 := Fn.orDefault h.w16, w32 := Fn.orDefault h.w32 }

/-- interface.cpp 717-725 / 767-774: the eight mmio callbacks. -/
def mmioDefaults (h : Handlers) : Handlers :=
  { r8 := Fn.orDefault h.r8, r16 := Fn.orDefault h.r16, r32 := Fn.orDefault h.r32, r64 := Fn.orDefault h.r64,
    w8 := Fn.orDefault h.w8, w16 := Fn.orDefault h.w16, w32 := Fn.orDefault h.w32, w64 := Fn.orDefault h.w64 }

/-- tc_clear_cache_and_tlb, translate.cpp 1145-1149 (abstracted). -/
def Cpu.clearCaches (c : Cpu) : Cpu := { c with cache := none }

/-- The common tail of the api functions: `if (should_int) { regions_changed.push_back; raise CPU_REGION_INT } else
{ memory_space_tree->insert / erase; tc_clear_cache_and_tlb }` (interface.cpp 672-679, 777-784, 816-823, 866-873, 897-904). -/
def Cpu.submit (c : Cpu) (op : Op) (shouldInt : Bool) : Option Cpu :=
  if shouldInt then some { c with changed := c.changed ++ [op], pRegion := true }
  else do
    let mem ← c.mem.step op
    pure (Cpu.clearCaches { c with mem := mem })

/-- mem_init_region_ram, interface.cpp 661-682. -/
def Cpu.initRam (c : Cpu) (start size : Nat) (shouldInt : Bool) : Option (Cpu × Status) :=
  if size = 0 then some (c, .invalidParameter)
  else do
    let r : Region := { start := start, stop := endOf maxAddr start size, type := .ram, buffOff := start }
    let c' ← Cpu.submit { c with nextReq := c.nextReq + 1 } (.insert r (.req c.nextReq)) shouldInt
    pure (c', .success)

/-- mem_init_region_rom, interface.cpp 842-879 (non-XBOX); `buffer = none` is a null pointer. -/
def Cpu.initRom (c : Cpu) (start size : Nat) (buffer : Option Nat) (shouldInt : Bool) : Option (Cpu × Status) :=
  match buffer with
  | none => some (c, .invalidParameter)
  | some b =>
    if size = 0 then some (c, .invalidParameter)
    else do
      let r : Region := { start := start, stop := endOf maxAddr start size, type := .rom, romPtr := b, buffOff := start }
      let c' ← Cpu.submit { c with nextReq := c.nextReq + 1 } (.insert r (.req c.nextReq)) shouldInt
      pure (c', .success)

/-- mem_init_region_io, interface.cpp 699-790. -/
def Cpu.initIo (c : Cpu) (start size : Nat) (ioSpace : Bool) (h : Handlers) (opaq : Nat) (shouldInt : Bool) (update : Nat) :
    Option (Cpu × Status) :=
  if update ≠ 0 then
    if shouldInt = false then some (c, .invalidParameter)
    else if update = 1 ∨ update = 2 then
      let h := if ioSpace then pmioDefaults h else mmioDefaults h
      let u : Update := { start := start, ioSpace := ioSpace, handlers := h, opaq := opaq }
      let c : Cpu := { c with updated := c.updated ++ [u] }
      some ({ c with pHandler := c.pHandler || decide (update = 2) }, .success)
    else if update = 3 then some ({ c with pHandler := true }, .success)
    else some (c, .invalidParameter)
  else if size = 0 then some (c, .invalidParameter)
  else if ioSpace then
    if start > 65535 ∨ (start + size) % u64 > 65536 then some (c, .invalidParameter)
    else do
      let r : Region := { start := start, stop := endOf maxPort start size, type := .pmio,
                          handlers := { pmioDefaults h with r64 := .null, w64 := .null }, opaq := opaq }
      let io ← c.io.step (.insert r (.req c.nextReq))
      pure ({ c with io := io, nextReq := c.nextReq + 1 }, .success)
  else do
    let r : Region := { start := start, stop := endOf maxAddr start size, type := .mmio, handlers := mmioDefaults h, opaq := opaq }
    let c' ← Cpu.submit { c with nextReq := c.nextReq + 1 } (.insert r (.req c.nextReq)) shouldInt
    pure (c', .success)

/-- mem_init_region_alias, interface.cpp 801-830. -/
def Cpu.initAlias (c : Cpu) (aliasStart oriStart oriSize : Nat) (shouldInt : Bool) : Option (Cpu × Status) :=
  if oriSize = 0 then some (c, .invalidParameter)
  else do
    let n ← getIt c.mem.nodes oriStart
    if n.reg.start ≤ oriStart ∧ sumLess1 oriStart oriSize ≤ n.reg.stop ∧ n.reg.type ≠ .unmapped then
      let r : Region := { start := aliasStart, stop := endOf maxAddr aliasStart oriSize, type := .alias,
                          aliasOff := oriStart - n.reg.start, aliased := some n.oid }
      let c' ← Cpu.submit { c with nextReq := c.nextReq + 1 } (.insert r (.req c.nextReq)) shouldInt
      pure (c', .success)
    else pure (c, .invalidParameter)

/-- mem_destroy_region, interface.cpp 888-907. -/
def Cpu.destroy (c : Cpu) (start size : Nat) (ioSpace shouldInt : Bool) : Option (Cpu × Status) :=
  if ioSpace then do
    let startIo := start % 65536
    let io ← c.io.step (.erase startIo (endOf maxPort startIo size))
    pure ({ c with io := io }, .success)
  else do
    let c' ← c.submit (.erase start (endOf maxAddr start size)) shouldInt
    pure (c', .success)

/-- interface.cpp 398: `0xFFFFFFFF ^ (!closed << 20)`. -/
def a20Mask (closed : Bool) : BitVec 32 := 0xFFFFFFFF#32 ^^^ ((if closed then 0#32 else 1#32) <<< 20)

/-- cpu_set_a20, interface.cpp 395-408. -/
def Cpu.setA20 (c : Cpu) (closed shouldInt : Bool) : Cpu :=
  let n := a20Mask closed
  let c := { c with newA20 := n }
  if c.a20 ≠ n then
    if shouldInt then { c with pA20 := true } else Cpu.clearCaches { c with a20 := n }
  else c

/-- One element of the loop in translate.cpp 1380-1396: the region found by `search(data.start)` gets the handlers if it
has the right type.  `search(data.start)` converts the start to `port_t` in the io case. -/
def applyUpdate (s : Space) (start : Nat) (ty : MemType) (h : Handlers) (o : Nat) : Option Space := do
  let n ← getIt s.nodes start
  if n.reg.type = ty then
    pure { s with nodes := updateNode s.nodes n.key (fun r => { r with handlers := h, opaq := o }) }
  else pure s

/-- translate.cpp 1379-1395: one element of regions_updated. -/
def Cpu.applyOne (c : Cpu) (u : Update) : Option Cpu :=
  if u.ioSpace then (applyUpdate c.io (u.start % 65536) .pmio u.handlers u.opaq).map (fun io => { c with io := io })
  else (applyUpdate c.mem u.start .mmio u.handlers u.opaq).map (fun mem => { c with mem := mem })

/-- translate.cpp 1379-1396: std::for_each over regions_updated. -/
def Cpu.applyUpdates (c : Cpu) : List Update → Option Cpu
  | [] => some c
  | u :: us => (c.applyOne u).bind (fun c => c.applyUpdates us)

/-- translate.cpp 1377-1399: CPU_HANDLER_INT. -/
def Cpu.serviceHandlers (c : Cpu) : Option Cpu :=
  if c.pHandler then do
    let c ← c.applyUpdates c.updated
    pure { c with updated := [], pHandler := false }
  else some c

/-- translate.cpp 1400-1431: CPU_A20_INT and CPU_REGION_INT.  With a pending a20 change the flush comes before the map
changes, otherwise after them; nothing runs in between. -/
def Cpu.serviceMap (c : Cpu) : Option Cpu :=
  if c.pA20 then
    let c := Cpu.clearCaches { c with a20 := c.newA20, pA20 := false }
    if c.pRegion then do
      let mem ← c.mem.run c.changed
      pure { c with mem := mem, changed := [], pRegion := false }
    else some c
  else if c.pRegion then do
    let mem ← c.mem.run c.changed
    pure (Cpu.clearCaches { c with mem := mem, changed := [], pRegion := false })
  else some c

/-- translate.cpp 1356-1455 cpu_do_int restricted to these three interrupts. -/
def Cpu.service (c : Cpu) : Option Cpu := c.serviceHandlers.bind Cpu.serviceMap

/-- The guest runs: it may cache the current memory map and a20 mask in the TLB and in translated code. -/
def Cpu.exec (c : Cpu) : Cpu :=
  match c.cache with
  | none => { c with cache := some (c.mem, c.a20) }
  | some _ => c

/-- Everything a client (or the guest) can do. -/
inductive Req where
  | ram (start size : Nat) (shouldInt : Bool)
  | rom (start size : Nat) (buffer : Option Nat) (shouldInt : Bool)
  | io (start size : Nat) (ioSpace : Bool) (h : Handlers) (opaq : Nat) (shouldInt : Bool) (update : Nat)
  | alias (aliasStart oriStart oriSize : Nat) (shouldInt : Bool)
  | destroy (start size : Nat) (ioSpace shouldInt : Bool)
  | a20 (closed shouldInt : Bool)
  | service
  | exec
  deriving DecidableEq, Repr

def Cpu.step (c : Cpu) : Req → Option (Cpu × Status)
  | .ram s z i => c.initRam s z i
  | .rom s z b i => c.initRom s z b i
  | .io s z sp h o i u => c.initIo s z sp h o i u
  | .alias a s z i => c.initAlias a s z i
  | .destroy s z sp i => c.destroy s z sp i
  | .a20 cl i => some (c.setA20 cl i, .success)
  | .service => c.service.map (·, .success)
  | .exec => some (c.exec, .success)

def Cpu.run (c : Cpu) : List Req → Option Cpu
  | [] => some c
  | r :: rs => (c.step r).bind (fun p => p.1.run rs)

end Verif.Region
