/-
Model of port i/o dispatch: core/memory_management.hpp 174-228 (as_io_dispatch_read / as_io_dispatch_write), 336-346
(io_read / io_write), support.hpp log_unhandled_read / log_unhandled_write.  Watchpoint checks (memory_management.cpp 873-885)
are in Model/Watch.
-/
import Verif.Model.RegionApi

namespace Verif.Region
open Verif.AS

inductive Width where
  | w8 | w16 | w32
  deriving DecidableEq, Repr

/-- What a port access does. -/
inductive IoAct where
  | call (fn : Fn) (port : Nat) (value : Option Nat) (opaq : Nat)  -- calls a callback; `value` is the written value
  | readsZero                                                       -- log_unhandled_read returns 0
  | dropped                                                         -- log_unhandled_write
  | abort                                                           -- LIB86CPU_ABORT
  | ub
  deriving DecidableEq, Repr

def readFn (h : Handlers) : Width → Fn
  | .w8 => h.r8 | .w16 => h.r16 | .w32 => h.r32
def writeFn (h : Handlers) : Width → Fn
  | .w8 => h.w8 | .w16 => h.w16 | .w32 => h.w32

/-- io_read<T>: memory_management.hpp 174-199, 336-340. -/
def ioRead (c : Cpu) (w : Width) (port : Nat) : IoAct :=
  match c.io.search port with
  | none => .ub
  | some r => match r.type with
    | .pmio => .call (readFn r.handlers w) port none r.opaq
    | .unmapped => .readsZero
    | _ => .abort

/-- io_write<T>: memory_management.hpp 201-228, 342-346. -/
def ioWrite (c : Cpu) (w : Width) (port value : Nat) : IoAct :=
  match c.io.search port with
  | none => .ub
  | some r => match r.type with
    | .pmio => .call (writeFn r.handlers w) port (some value) r.opaq
    | .unmapped => .dropped
    | _ => .abort

end Verif.Region
