/-
Which callback of a port region an access uses, from the documentation of io_handlers_t in include/lib86cpu.hpp.
-/
import Verif.Model.PortIo

namespace Verif.Region.Spec
open Verif.AS Verif.Region

/-- The read callback of each width: fnr8, fnr16, fnr32. -/
def reader (h : Handlers) (w : Width) : Fn :=
  if w = .w8 then h.r8 else if w = .w16 then h.r16 else h.r32

/-- The write callback of each width: fnw8, fnw16, fnw32. -/
def writer (h : Handlers) (w : Width) : Fn :=
  if w = .w8 then h.w8 else if w = .w16 then h.w16 else h.w32

end Verif.Region.Spec
