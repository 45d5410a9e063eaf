/-
Specification of block transfers, one byte at a time.
-/
import Verif.Model.Block
import Verif.Spec.Alias
import Verif.Spec.AddressSpace

namespace Verif.Block.Spec
open Verif.AS Verif.AS.Spec Verif.Block

/-- The host byte behind physical address `a`: the region containing `a`, followed through aliases, must be ram or rom. -/
inductive BackedBy (s : Space) (a : Addr) : Cell → Prop
  | ram {r z b} : s.search a.toNat = some r → Contains r a.toNat → Forwards s.nodes r a z b → Contains z b.toNat → z.type = .ram →
      BackedBy s a (.ram (b - BitVec.ofNat 32 z.buffOff).toNat)
  | rom {r z b} : s.search a.toNat = some r → Contains r a.toNat → Forwards s.nodes r a z b → Contains z b.toNat → z.type = .rom →
      BackedBy s a (.rom z.romPtr (b - BitVec.ofNat 32 z.buffOff).toNat)

/-- The `n` bytes from `a` lie in one region, and what they forward to lies in one ram or rom region. -/
def ChunkOk (s : Space) (a : Addr) (n : Nat) : Prop :=
  ∃ r z b, s.search a.toNat = some r ∧ r.start ≤ a.toNat ∧ a.toNat + n ≤ r.stop + 1 ∧ Forwards s.nodes r a z b ∧
    z.start ≤ b.toNat ∧ b.toNat + n ≤ z.stop + 1 ∧ (z.type = .ram ∨ z.type = .rom)

/-- No alias forwards to the last page of the 4 GiB space (where `address + length` would wrap around). -/
def AliasesBelowTop (s : Space) : Prop :=
  ∀ (a : Addr) r z (b : Addr), s.search a.toNat = some r → r.type = .alias → Forwards s.nodes r a z b → b.toNat + 4096 ≤ 4294967296

/-- Storing a byte: rom ignores it. -/
def store (mem : Mem) : Cell → Byte → Mem
  | .ram i, v => fun c => if c = .ram i then v else mem c
  | .rom _ _, _ => mem

/-- Storing byte `k` at cell `at_ k` for k = 0, 1, ..., n-1 in this order. -/
def storeAll (mem : Mem) (at_ : Nat → Cell) (v : Nat → Byte) : Nat → Mem
  | 0 => mem
  | n + 1 => store (storeAll mem at_ v n) (at_ n) (v n)

end Verif.Block.Spec
