/-
Specification of the region api, from its documentation in lib86cpu/interface.cpp (comments above each function).
-/
import Verif.Model.RegionApi
import Verif.Spec.AddressSpace

namespace Verif.Region.Spec
open Verif.AS Verif.AS.Spec Verif.Region

/-- The requests the api documents as invalid. -/
def Rejected (c : Cpu) : Req → Prop
  | .ram _ size _ => size = 0
  | .rom _ size buffer _ => size = 0 ∨ buffer = none
  | .io start size ioSpace _ _ shouldInt update =>
    (update ≠ 0 ∧ (shouldInt = false ∨ 3 < update)) ∨ (update = 0 ∧ (size = 0 ∨ (ioSpace = true ∧ 65536 < start + size)))
  | .alias _ oriStart oriSize _ =>
    oriSize = 0 ∨ ¬ ∃ r, c.mem.search oriStart = some r ∧ r.start ≤ oriStart ∧ oriStart + oriSize - 1 ≤ r.stop ∧ r.type ≠ .unmapped
  | _ => False

/-- The 64 bit sum of start and size does not wrap around. -/
def NoWrap : Req → Prop
  | .ram start size _ => start + size < 2 ^ 64
  | .rom start size _ _ => start + size < 2 ^ 64
  | .io start size _ _ _ _ _ => start + size < 2 ^ 64
  | .alias a s size _ => a + size < 2 ^ 64 ∧ s + size < 2 ^ 64
  | .destroy start size _ _ => start + size < 2 ^ 64
  | _ => True

def orDflt (f : Fn) : Fn := if f = .null then .dflt else f

/-- The callbacks a new region uses: the given ones, the library's default where null. -/
def given (h : Handlers) : Handlers :=
  { r8 := orDflt h.r8, r16 := orDflt h.r16, r32 := orDflt h.r32, r64 := orDflt h.r64,
    w8 := orDflt h.w8, w16 := orDflt h.w16, w32 := orDflt h.w32, w64 := orDflt h.w64 }

/-- What an immediate change of the memory map should do: the range [start, start + size) gets this. -/
def memEffect : Req → Option (Nat × Nat × Option Region)
  | .ram start size false => some (start, size, some { start := 0, stop := 0, type := .ram, buffOff := start })
  | .rom start size (some b) false => some (start, size, some { start := 0, stop := 0, type := .rom, romPtr := b, buffOff := start })
  | .io start size false h o false 0 => some (start, size, some { start := 0, stop := 0, type := .mmio, handlers := given h, opaq := o })
  | .destroy start size false false => some (start, size, none)
  | _ => none

/-- The port owned by a pmio region: the three widths, reads and writes. -/
def portHandlers (h : Handlers) : Handlers := { given h with r64 := .null, w64 := .null }

end Verif.Region.Spec
