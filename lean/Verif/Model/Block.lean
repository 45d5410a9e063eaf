/-
Model of the block api: mem_read_block (lib86cpu/interface.cpp 910-980) and mem_write_handler (interface.cpp 1006-1079).

Host memory is a function from cells to bytes: `ram i` is cpu_ctx.ram[i], `rom p i` is byte i of the client's rom buffer p.
An index outside the ram buffer is undefined behaviour (`ub`); the client's rom buffers are assumed long enough.
`retry` loops have no bound in the code: the model takes the number of iterations allowed, `hangs` means not ended within it.
Address translation (the is_virt template argument) is the parameter `tr`: it may fail with a guest exception, change memory
(accessed/dirty bits), and for writes reports `is_code`; `physR`/`physW` are the physical instances.
`invs` records the tc_invalidate calls in order.
-/
import Verif.Model.Alias

namespace Verif.Block
open Verif.AS

abbrev Byte := BitVec 8
abbrev Addr := BitVec 32

inductive Cell where
  | ram (i : Nat)
  | rom (p i : Nat)
  deriving DecidableEq, Repr

abbrev Mem := Cell → Byte

/-- Where a chunk is copied from or to. -/
inductive Target where
  | ram (i : Nat)
  | rom (p i : Nat)
  | fail
  | ub
  | hangs
  deriving DecidableEq, Repr

/-- interface.cpp 928-962 / 1029-1063: the bounds check, the switch over the region type and `goto retry`.
get_ram_host_ptr / get_rom_host_ptr: memory_management.hpp 233-243. -/
def resolve (m : List Node) (ramSize : Nat) : Nat → Region → Addr → Nat → Target
  | 0, _, _, _ => .hangs
  | f + 1, r, a, n =>
    if r.start ≤ a.toNat ∧ (a + BitVec.ofNat 32 n - 1).toNat ≤ r.stop then
      match r.type with
      | .ram =>
        let i := (a - BitVec.ofNat 32 r.buffOff).toNat
        if i + n ≤ ramSize then .ram i else .ub
      | .rom => .rom r.romPtr (a - BitVec.ofNat 32 r.buffOff).toNat
      | .alias =>
        match resolveAlias m (f + 1) r a with
        | .done (q, b) => resolve m ramSize f q b n
        | .ub => .ub
        | .running => .hangs
      | _ => .fail
    else .fail

def target (s : Space) (ramSize fuel : Nat) (a : Addr) (n : Nat) : Target :=
  match s.search a.toNat with
  | none => .ub
  | some r => resolve s.nodes ramSize fuel r a n

inductive Status where
  | success | internalError | guestExp
  deriving DecidableEq, Repr

inductive Outcome (α : Type) where
  | ret (x : α)
  | ub
  | hangs

/-- interface.cpp 921, 1016: `std::min(PAGE_SIZE - page_offset, size_left)`. -/
def chunk (a : Addr) (left : Nat) : Nat := min (4096 - a.toNat % 4096) left

structure ReadRes where
  status : Status
  actual : Nat
  out : List Byte
  mem : Mem

/-- `n` bytes of a buffer. -/
def peek (mem : Mem) (c : Nat → Cell) (n : Nat) : List Byte := (List.range n).map (fun k => mem (c k))

/-- interface.cpp 917-968: the loop of mem_read_block.  `vec` is vec_offset, `out` what has been stored so far. -/
def readLoop (s : Space) (ramSize fuel : Nat) (tr : Mem → Addr → Option Addr × Mem) :
    Nat → Addr → Nat → Nat → List Byte → Mem → Outcome ReadRes
  | 0, _, left, vec, out, mem => if left = 0 then .ret ⟨.success, vec, out, mem⟩ else .hangs
  | it + 1, addr, left, vec, out, mem =>
    if left = 0 then .ret ⟨.success, vec, out, mem⟩
    else
      let n := chunk addr left
      match tr mem addr with
      | (none, mem) => .ret ⟨.guestExp, vec, out, mem⟩
      | (some phys, mem) =>
        match target s ramSize fuel phys n with
        | .ram i => readLoop s ramSize fuel tr it (addr + BitVec.ofNat 32 n) (left - n) (vec + n) (out ++ peek mem (fun k => .ram (i + k)) n) mem
        | .rom p i => readLoop s ramSize fuel tr it (addr + BitVec.ofNat 32 n) (left - n) (vec + n) (out ++ peek mem (fun k => .rom p (i + k)) n) mem
        | .fail => .ret ⟨.internalError, vec, out, mem⟩
        | .ub => .ub
        | .hangs => .hangs

/-- interface.cpp 910-980 mem_read_block.  At most `size` iterations are needed (each transfers at least one byte). -/
def readBlock (s : Space) (ramSize fuel : Nat) (tr : Mem → Addr → Option Addr × Mem) (addr : Addr) (size : Nat) (mem : Mem) :
    Outcome ReadRes :=
  readLoop s ramSize fuel tr size addr size 0 [] mem

structure WriteRes where
  status : Status
  actual : Nat
  mem : Mem
  invs : List (Addr × Nat)

/-- memcpy / memset into the ram buffer. -/
def poke (mem : Mem) (i n : Nat) (b : Nat → Byte) : Mem
  | .ram j => if i ≤ j ∧ j < i + n then b (j - i) else mem (.ram j)
  | c => mem c

/-- Source of a write: a buffer (its remaining part; `buffer += bytes_to_write` drops its front) or memset with `val`. -/
inductive Src where
  | buffer (bytes : List Byte)
  | fill (val : BitVec 32)

/-- Byte `k` of the source; memset converts `val` to unsigned char.  Reading past the buffer is excluded by the callers
(the api contract: buffer has `size` bytes). -/
def Src.byte : Src → Nat → Byte
  | .buffer l, k => l.getD k 0
  | .fill v, _ => v.setWidth 8

/-- interface.cpp 1066: the buffer pointer advances. -/
def Src.advance : Src → Nat → Src
  | .buffer l, n => .buffer (l.drop n)
  | .fill v, _ => .fill v

/-- interface.cpp 1013-1071: the loop of mem_write_handler. `tr` also reports whether tc_invalidate is called. -/
def writeLoop (s : Space) (ramSize fuel : Nat) (tr : Mem → Addr → Option (Addr × Bool) × Mem) :
    Nat → Addr → Nat → Nat → Src → Mem → List (Addr × Nat) → Outcome WriteRes
  | 0, _, left, tot, _, mem, invs => if left = 0 then .ret ⟨.success, tot, mem, invs⟩ else .hangs
  | it + 1, addr, left, tot, src, mem, invs =>
    if left = 0 then .ret ⟨.success, tot, mem, invs⟩
    else
      let n := chunk addr left
      match tr mem addr with
      | (none, mem) => .ret ⟨.guestExp, tot, mem, invs⟩
      | (some (phys, isCode), mem) =>
        let invs := if isCode then invs ++ [(phys, n)] else invs
        match target s ramSize fuel phys n with
        | .ram i => writeLoop s ramSize fuel tr it (addr + BitVec.ofNat 32 n) (left - n) (tot + n) (src.advance n) (poke mem i n src.byte) invs
        | .rom _ _ => writeLoop s ramSize fuel tr it (addr + BitVec.ofNat 32 n) (left - n) (tot + n) (src.advance n) mem invs
        | .fail => .ret ⟨.internalError, tot, mem, invs⟩
        | .ub => .ub
        | .hangs => .hangs

/-- interface.cpp 1006-1079 mem_write_handler. -/
def writeBlock (s : Space) (ramSize fuel : Nat) (tr : Mem → Addr → Option (Addr × Bool) × Mem) (addr : Addr) (size : Nat) (src : Src)
    (mem : Mem) : Outcome WriteRes :=
  writeLoop s ramSize fuel tr size addr size 0 src mem []

/-- is_virt = false: interface.cpp 925-927, 1023-1026. -/
def physR : Mem → Addr → Option Addr × Mem := fun m a => (some a, m)
def physW : Mem → Addr → Option (Addr × Bool) × Mem := fun m a => (some (a, true), m)

end Verif.Block
