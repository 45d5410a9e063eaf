/-
Model of mem_read_slow and mem_write_slow (core/memory_management.hpp 262-333), the accessors the guest falls back to when the data
TLB misses.  The physical bytes are `St.mem`: regions are taken to be ram (memory mapped devices are not modelled here).  The width of
the access is `n` bytes (1, 2, 4, 8, 10 or 16 in the code).  Watchpoints and the invalidation of translated code are not modelled
here (Model/Watch.lean, Model/Tc.lean).
-/
import Verif.Model.Tlb

namespace Verif.Paging

/-- The addresses the loop 276-284 / 320-328 goes through: `k` iterations left, counter `i`, next address `p`. -/
def crossAddrs (bip : Nat) (pe : Addr) : Nat → Nat → Addr → List Addr
  | 0, _, _ => []
  | k + 1, i, p => p :: crossAddrs bip pe k (i + 1) (if i + 1 = bip then pageBase pe else p + 1#32)

/-- 275: `((addr + type_size - 1) & ~PAGE_MASK) - addr`. -/
def bytesInPage (addr : Addr) (n : Nat) : Nat := (pageBase (addr + BitVec.ofNat 32 n - 1#32) - addr).toNat

/-- Consecutive addresses: what as_memory_dispatch_read/write<T> touches. -/
def flatAddrs (p : Addr) (n : Nat) : List Addr := (List.range n).map (fun i => p + BitVec.ofNat 32 i)

/-- The translations of an access (262-275, 289-291; 300-308, 330-332): the physical address of every byte, in order. -/
def slowAddrs (b : Bus) (s : St) (addr : Addr) (n : Nat) (wr pr : Bool) (v1 v2 : Nat) : St × Except Tr (List Addr) :=
  if n ≠ 1 ∧ pageBase addr ≠ pageBase (addr + BitVec.ofNat 32 n - 1#32) then
    match translate b s false addr wr pr false v1 with
    | (s, .ok ps) =>
      match translate b s false (addr + BitVec.ofNat 32 n - 1#32) wr pr false v2 with
      | (s, .ok pe) => (s, .ok (crossAddrs (bytesInPage addr n) pe n 0 ps))
      | (s, e) => (s, .error e)
    | (s, e) => (s, .error e)
  else
    match translate b s false addr wr pr false v1 with
    | (s, .ok p) => (s, .ok (flatAddrs p n))
    | (s, e) => (s, .error e)

/-- `value |= (T)byte << (i * 8)` over the bytes; also the little-endian read of consecutive bytes. -/
def gather (m : Mem) (w : Nat) : Nat → List Addr → BitVec w
  | _, [] => 0#w
  | i, a :: as => ((m a).setWidth w <<< (i * 8)) ||| gather m w (i + 1) as

/-- Writing `(uint8_t)(value >> (i * 8))` byte by byte. -/
def scatter {w : Nat} (val : BitVec w) : Nat → List Addr → Mem → Mem
  | _, [], m => m
  | i, a :: as, m => scatter val (i + 1) as (fun x => if x = a then (val >>> (i * 8)).setWidth 8 else m x)

/-- The same for uint80_t and uint128_t, whose operator>> shifts the object itself (core/emitter/x64/support.cpp 66-146,
core/emitter/emitter_common.cpp 349-356): the loop goes on with the shifted value. -/
def scatterWide {w : Nat} : BitVec w → Nat → List Addr → Mem → Mem
  | _, _, [], m => m
  | val, i, a :: as, m => scatterWide (val >>> (i * 8)) (i + 1) as (fun x => if x = a then (val >>> (i * 8)).setWidth 8 else m x)

/-- 299: the access crosses a page boundary (the loop is used). -/
def crosses (addr : Addr) (n : Nat) : Bool := decide (n ≠ 1 ∧ pageBase addr ≠ pageBase (addr + BitVec.ofNat 32 n - 1#32))

/-- support.hpp 44-48: the types that are not integers. -/
def isWide (n : Nat) : Bool := n == 10 || n == 16

/-- mem_read_slow, 262-293. -/
def memReadSlow (b : Bus) (s : St) (addr : Addr) (n : Nat) (pr : Bool) (v1 v2 : Nat) : St × Except Tr (BitVec (8 * n)) :=
  match slowAddrs b s addr n false pr v1 v2 with
  | (s, .ok as) => (s, .ok (gather s.mem (8 * n) 0 as))
  | (s, .error e) => (s, .error e)

/-- mem_write_slow, 295-338. -/
def memWriteSlow (b : Bus) (s : St) (addr : Addr) (n : Nat) (val : BitVec (8 * n)) (pr : Bool) (v1 v2 : Nat) : St × Except Tr Unit :=
  match slowAddrs b s addr n true pr v1 v2 with
  | (s, .ok as) => ({ s with mem := if isWide n && crosses addr n then scatterWide val 0 as s.mem else scatter val 0 as s.mem }, .ok ())
  | (s, .error e) => (s, .error e)

end Verif.Paging
