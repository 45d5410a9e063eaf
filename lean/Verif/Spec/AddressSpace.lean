/-
Specification of an address space, independent of how it is stored.

`Payload` is what a client can observe of the region that serves an address (everything except its bounds);
`unmapped` regions are all alike.
-/
import Verif.Model.AddressSpace

namespace Verif.AS.Spec
open Verif.AS

/-- What serves an address: `none` for unmapped, otherwise the region with its bounds forgotten. -/
def payload (r : Region) : Option Region :=
  if r.type = .unmapped then none else some { r with start := 0, stop := 0 }

/-- `a` lies in the region. -/
def Contains (r : Region) (a : Nat) : Prop := r.start ≤ a ∧ a ≤ r.stop

instance (r : Region) (a : Nat) : Decidable (Contains r a) := inferInstanceAs (Decidable (_ ∧ _))

/-- The property a user relies on: every address of the space is found in a region that contains it. -/
def Covers (s : Space) : Prop := ∀ a, a ≤ s.max → ∃ r, s.search a = some r ∧ Contains r a

/-- What serves address `a` (outer `none` would be undefined behaviour of the lookup). -/
def serves (s : Space) (a : Nat) : Option (Option Region) := (s.search a).map payload

/-- The intended meaning of a history: the latest change covering the address decides. -/
def intended : List Op → Nat → Option Region
  | [], _ => none
  | op :: earlier, a =>
    match op with
    | .insert r _ => if r.start ≤ a ∧ a ≤ r.stop then payload r else intended earlier a
    | .erase b c => if b ≤ a ∧ a ≤ c then none else intended earlier a

/-- Well-formed change of a space of size `max + 1`. -/
def OpValid (max : Nat) : Op → Prop
  | .insert r _ => r.start ≤ r.stop ∧ r.stop ≤ max
  | .erase b c => b ≤ c ∧ c ≤ max

def Op.lo : Op → Nat
  | .insert r _ => r.start
  | .erase b _ => b
def Op.hi : Op → Nat
  | .insert r _ => r.stop
  | .erase _ c => c

/-- What a change puts at the addresses of its range. -/
def Op.puts : Op → Option Region
  | .insert r _ => payload r
  | .erase _ _ => none

/-- The coincidence that the code mishandles (as.hpp 73 and 118): the range ends on the first byte of a region that is
longer than one byte and that does not contain the start of the range. -/
def Coincidence (s : Space) (op : Op) : Prop :=
  ∃ r, s.search (Op.hi op) = some r ∧ r.start = Op.hi op ∧ r.stop ≠ r.start ∧ Op.lo op < r.start

/-- A history in which the coincidence never happens. -/
def Benign (s : Space) : List Op → Prop
  | [] => True
  | op :: ops => ¬ Coincidence s op ∧ ∀ s', s.step op = some s' → Benign s' ops

end Verif.AS.Spec
