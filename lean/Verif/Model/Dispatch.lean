import Verif.Model.Block
/-
Guest accesses of one size to physical memory: as_memory_dispatch_read and as_memory_dispatch_write
(core/memory_management.hpp 67-171), called by mem_read_slow / mem_write_slow (262-332) with the region found by
as_memory_search_addr. `n` is sizeof_type<T> (1, 2, 4, 8, 10 or 16, support.hpp 44-48); a value is the list of its
bytes, lowest first. Memory, regions and the search are those of Model/Block and Model/AddressSpace.

Devices are the client's: `dev` gives what the read handler of a region returns; the calls made are recorded.
-/
namespace Verif.Dispatch
open Verif.AS Verif.Block

/-- Where an access of `n` bytes at `a` goes (the switch of 71-121 / 131-170). -/
inductive Dest where
  | ram (i : Nat)
  | rom (p i : Nat)
  /-- 78: runs past the end of the rom region -/
  | romTail (r : Region) (a : Addr)
  /-- the handler of region `r` is called with address `a` -/
  | dev (r : Region) (a : Addr)
  | unmapped
  | abort
  | ub
  | hangs

/-- memory_management.hpp 72-121, 131-170. `addr + type_size - 1` (78) is computed in 64 bits. An index past the ram
buffer (`ramSize` bytes from cpu->ram) is undefined behaviour. -/
def dest (m : List Node) (ramSize : Nat) : Nat → Region → Addr → Nat → Dest
  | 0, _, _, _ => .hangs
  | f + 1, r, a, n =>
    match r.type with
    | .ram =>
      let i := (a - BitVec.ofNat 32 r.buffOff).toNat
      if i + n ≤ ramSize then .ram i else .ub
    | .rom => if a.toNat + n - 1 > r.stop then .romTail r a else .rom r.romPtr (a - BitVec.ofNat 32 r.buffOff).toNat
    | .mmio => if n = 1 ∨ n = 2 ∨ n = 4 ∨ n = 8 then .dev r a else .abort
    | .alias =>
      match resolveAlias m (f + 1) r a with
      | .done (q, b) => dest m ramSize f q b n
      | .ub => .ub
      | .running => .hangs
    | .unmapped => .unmapped
    | .pmio => .abort

/-- as_memory_search_addr, 57-60, then the dispatch. -/
def destAt (s : Space) (ramSize fuel : Nat) (a : Addr) (n : Nat) : Dest :=
  match s.search a.toNat with
  | none => .ub
  | some r => dest s.nodes ramSize fuel r a n

/-- A handler call: region, address, size, and the bytes written (none for a read). -/
structure Call where
  reg : Region
  addr : Addr
  size : Nat
  data : Option (List Byte)
  deriving DecidableEq

inductive Out (α : Type) where
  | ok (x : α) (calls : List Call)
  | abort
  | ub
  | hangs

/-- What a device returns. -/
abbrev Dev := Region → Addr → Nat → List Byte

/-- as_memory_dispatch_read<uint8_t> after a search, 67-122 (a one byte access never runs past its region). -/
def readByte (s : Space) (ramSize fuel : Nat) (dev : Dev) (mem : Mem) (a : Addr) : Out Byte :=
  match destAt s ramSize fuel a 1 with
  | .ram i => .ok (mem (.ram i)) []
  | .rom p i => .ok (mem (.rom p i)) []
  | .dev r b => .ok ((dev r b 1).getD 0 0) [⟨r, b, 1, none⟩]
  | .unmapped => .ok 0 []
  | .romTail _ _ => .hangs
  | .abort => .abort
  | .ub => .ub
  | .hangs => .hangs

/-- 82-87: the loop that reads the rest of a rom region byte by byte; `k` bytes to the end of the region. -/
def romBytes (s : Space) (ramSize fuel : Nat) (dev : Dev) (mem : Mem) : Nat → Addr → Out (List Byte)
  | 0, _ => .ok [] []
  | k + 1, a =>
    match readByte s ramSize fuel dev mem a with
    | .ok b cs =>
      match romBytes s ramSize fuel dev mem k (a + 1#32) with
      | .ok bs cs' => .ok (b :: bs) (cs ++ cs')
      | .abort => .abort
      | .ub => .ub
      | .hangs => .hangs
    | .abort => .abort
    | .ub => .ub
    | .hangs => .hangs

/-- as_memory_dispatch_read<T>, 67-122. The loop 82-87 never ends if the region ends at the last address (`++addr`
wraps around); otherwise the bytes after the region read as 0 (80). -/
def read (s : Space) (ramSize fuel : Nat) (dev : Dev) (mem : Mem) (a : Addr) (n : Nat) : Out (List Byte) :=
  match destAt s ramSize fuel a n with
  | .ram i => .ok (peek mem (fun k => .ram (i + k)) n) []
  | .rom p i => .ok (peek mem (fun k => .rom p (i + k)) n) []
  | .romTail r b =>
    if r.stop = 4294967295 then .hangs
    else
      match romBytes s ramSize fuel dev mem (r.stop + 1 - b.toNat) b with
      | .ok bs cs => .ok (bs ++ List.replicate (n - bs.length) 0) cs
      | .abort => .abort
      | .ub => .ub
      | .hangs => .hangs
  | .dev r b => .ok (dev r b n) [⟨r, b, n, none⟩]
  | .unmapped => .ok (List.replicate n 0) []
  | .abort => .abort
  | .ub => .ub
  | .hangs => .hangs

/-- as_memory_dispatch_write<T>, 124-171. Rom ignores the write whatever its size. -/
def write (s : Space) (ramSize fuel : Nat) (mem : Mem) (a : Addr) (v : List Byte) : Out Mem :=
  match destAt s ramSize fuel a v.length with
  | .ram i => .ok (poke mem i v.length (fun k => v.getD k 0)) []
  | .rom _ _ => .ok mem []
  | .romTail _ _ => .ok mem []
  | .dev r b => .ok mem [⟨r, b, v.length, some v⟩]
  | .unmapped => .ok mem []
  | .abort => .abort
  | .ub => .ub
  | .hangs => .hangs

end Verif.Dispatch
