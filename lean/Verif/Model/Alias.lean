/-
Model of alias resolution: AS_RESOLVE_ALIAS (core/memory_management.hpp 14-18) with its uses (memory_management.hpp 112-116,
interface.cpp mem_read_block / mem_write_handler) and correct_phys_addr (core/memory_management.cpp 40-58).

`aliased_region` is a raw pointer: following a pointer to an object that is no longer in the map is undefined behaviour
(`.ub`).  The loops have no bound in the code; the model takes the number of iterations allowed, `.running` means the loop
has not ended within it.  Addresses are 32 bit with wrap-around.
-/
import Verif.Model.RegionApi

namespace Verif.AS

/-- Dereference of a region pointer. -/
def findOid (m : List Node) (o : Oid) : Option Node := m.find? (fun n => decide (n.oid = o))

inductive LoopRes (α : Type) where
  | done (x : α)
  | ub
  | running
  deriving DecidableEq, Repr

def LoopRes.map {α β : Type} (f : α → β) : LoopRes α → LoopRes β
  | .done x => .done (f x)
  | .ub => .ub
  | .running => .running

/-- AS_RESOLVE_ALIAS, memory_management.hpp 14-18: `while (region->aliased_region) { region = region->aliased_region;
alias_offset += region->alias_offset; }`. -/
def resolveLoop (m : List Node) : Nat → Region → BitVec 32 → LoopRes (Region × BitVec 32)
  | 0, _, _ => .running
  | f + 1, r, off =>
    match r.aliased with
    | none => .done (r, off)
    | some o =>
      match findOid m o with
      | none => .ub
      | some q => resolveLoop m f q.reg (off + BitVec.ofNat 32 q.reg.aliasOff)

/-- memory_management.hpp 112-116: `region->start + alias_offset + (addr - alias->start)`; the macro starts with
`alias_offset = region->alias_offset`. -/
def resolveAlias (m : List Node) (fuel : Nat) (r : Region) (addr : BitVec 32) : LoopRes (Region × BitVec 32) :=
  (resolveLoop m fuel r (BitVec.ofNat 32 r.aliasOff)).map
    (fun p => (p.1, BitVec.ofNat 32 p.1.start + p.2 + (addr - BitVec.ofNat 32 r.start)))

/-- memory_management.cpp 48-53: the loop of correct_phys_addr. -/
def correctLoop (m : List Node) : Nat → Region → BitVec 32 → LoopRes (Region × BitVec 32)
  | 0, _, _ => .running
  | f + 1, r, offset =>
    match r.aliased with
    | none => .done (r, offset)
    | some o =>
      match findOid m o with
      | none => .ub
      | some q => correctLoop m f q.reg
          (offset + (BitVec.ofNat 32 r.start - (BitVec.ofNat 32 r.aliasOff + BitVec.ofNat 32 q.reg.start)))

/-- correct_phys_addr, memory_management.cpp 40-58. -/
def correctPhysAddr (m : List Node) (fuel : Nat) (a20 : BitVec 32) (r : Region) (addr : BitVec 32) :
    LoopRes (Region × BitVec 32) :=
  if r.type = .alias then (correctLoop m fuel r 0).map (fun p => (p.1, (addr - p.2) &&& a20))
  else .done (r, addr &&& a20)

end Verif.AS
