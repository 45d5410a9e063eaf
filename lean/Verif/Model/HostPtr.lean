/-
Model of get_host_ptr (lib86cpu/interface.cpp 613-645), over the host memory and the translation parameter of Model/Block.lean.
-/
import Verif.Model.Block

namespace Verif.Block
open Verif.AS

/-- What get_host_ptr gives: a pointer to a host byte, or nullptr with the error left for get_last_error. -/
inductive HostPtr where
  | at_ (c : Cell)
  | guestExp
  | invalidParameter
  deriving DecidableEq, Repr

/-- memory_management.hpp 233-243 get_rom_host_ptr / get_ram_host_ptr.  A pointer outside of the ram buffer is undefined behaviour. -/
def hostPtrIn (r : Region) (ramSize : Nat) (phys : Addr) : Outcome HostPtr :=
  match r.type with
  | .ram =>
    let i := (phys - BitVec.ofNat 32 r.buffOff).toNat
    if i < ramSize then .ret (.at_ (.ram i)) else .ub
  | .rom => .ret (.at_ (.rom r.romPtr (phys - BitVec.ofNat 32 r.buffOff).toNat))
  | _ => .ret .invalidParameter

/-- interface.cpp 619-645 get_host_ptr.  `tr` is get_read_addr; the region is looked up once (aliases are not followed). -/
def getHostPtr (s : Space) (ramSize : Nat) (tr : Mem → Addr → Option Addr × Mem) (addr : Addr) (mem : Mem) : Outcome HostPtr × Mem :=
  match tr mem addr with
  | (none, mem) => (.ret .guestExp, mem)
  | (some phys, mem) =>
    match s.search phys.toNat with
    | none => (.ub, mem)
    | some r => (hostPtrIn r ramSize phys, mem)

end Verif.Block
