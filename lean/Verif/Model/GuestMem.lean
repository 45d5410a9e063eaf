/-
The guest's linear memory as the emitted code and the helpers see it through mem_read_helper and
mem_write_helper (core/memory_management.hpp 210-440): little endian accesses of `k` bytes that
either complete or fault before changing anything (C23, C24 prove this for the paged memory;
here the translation is abstracted to the set of accessible accesses).
-/
namespace Verif.Guest

/-- Bytes by linear address. -/
abbrev Mem := BitVec 32 → BitVec 8

/-- memory_management.hpp 246-290: the `k` bytes from `a` on, little endian. -/
def load (m : Mem) (a : BitVec 32) : Nat → Nat
  | 0 => 0
  | k + 1 => load m a k + (m (a + BitVec.ofNat 32 k)).toNat * 256 ^ k

/-- memory_management.hpp 294-360: store the low `k` bytes of `v` from `a` on. -/
def store (m : Mem) (a : BitVec 32) (k : Nat) (v : Nat) : Mem := fun x =>
  if (x - a).toNat < k then BitVec.ofNat 8 (v / 256 ^ (x - a).toNat) else m x

/-- Which accesses (address, size, is a write) are allowed; the others raise a page fault. -/
abbrev Ok := BitVec 32 → Nat → Bool → Bool

end Verif.Guest
