/-
User options: lib86cpu/interface.cpp 356-383 (cpu_set_flags), 115-192 (cpu_new),
core/decode.cpp 13-48 (the formatter), core/emitter/x64/jit.cpp 6641-6670 (HLT), support.hpp 15-18
(internal flag bits), core/translate.cpp 1634-1700 (cpu_start) and 1713-1719
(dbg_exec_original_instr), support.cpp 135-151 (cpu_load_state), include/lib86cpu.hpp 43-48.
-/
namespace Verif.SetFlags

/-- include/lib86cpu.hpp 46-48: CPU_SYNTAX_MASK | CPU_DBG_PRESENT | CPU_ABORT_ON_HLT. -/
def userMask : BitVec 32 := 7#32 ||| 0x800#32 ||| 0x1000#32

/-- support.hpp 18: CPU_PRESERVED_FLG_MASK, with CPU_TIMEOUT = 1 << 3 and CPU_SINGLE_STEP = 1 << 10. -/
def preservedMask : BitVec 32 := 7#32 ||| 0x8#32 ||| 0x400#32 ||| 0x800#32 ||| 0x1000#32

/-- How the disassembly formatter prints (decode.cpp 15-24). -/
inductive Style | att | masm | intel
  deriving DecidableEq, Repr

/-- decode.cpp 15-24: to_zydis_instr_style, indexed by the syntax field. -/
def styleOf (i : BitVec 32) : Style :=
  if i = 0#32 then .att else if i = 1#32 then .masm else .intel

/-- What the options act on. `hltBlocks` has one entry for every translated block in the code cache
that contains HLT at privilege level 0: does its code end the emulation (jit.cpp 6651)? Everything
else in the cpu is untouched by cpu_set_flags and not represented. -/
structure Cpu where
  flags : BitVec 32
  formatter : Style
  hltBlocks : List Bool
  deriving DecidableEq, Repr

/-- interface.cpp 127 (`new cpu_t()`, flags zero, empty cache) and 184 (set_instr_format). -/
def create : Cpu := ⟨0#32, styleOf (0#32 &&& 7#32), []⟩

/-- interface.cpp 356-383: `true` is success, `false` invalid_parameter. -/
def setFlags (c : Cpu) (f : BitVec 32) : Cpu × Bool :=
  if f &&& ~~~userMask ≠ 0#32 then (c, false)
  else
    if f &&& 7#32 = 0#32 ∨ f &&& 7#32 = 2#32 ∨ f &&& 7#32 = 1#32 then
      let c1 := if c.flags &&& 0x1000#32 ≠ f &&& 0x1000#32 then { c with hltBlocks := [] } else c
      let fl := (c1.flags &&& ~~~userMask) ||| f
      ({ c1 with flags := fl, formatter := styleOf (fl &&& 7#32) }, true)
    else (c, false)

/-- What happens to the options and the cache between two calls. -/
inductive Op
  /-- cpu_set_flags. -/
  | set (f : BitVec 32)
  /-- A block with HLT is translated and cached (jit.cpp 6651). -/
  | translateHlt
  /-- Some blocks leave the cache (invalidation, purge): those at the given positions stay. -/
  | evict (keep : Nat → Bool)
  /-- The library sets internal flag bits: CPU_TIMEOUT (translate.cpp 1655), CPU_DISAS_ONE (1716),
  CPU_SINGLE_STEP (dbg/imgui_wnd.cpp 127). -/
  | raiseTimeout | raiseOne | raiseStep
  /-- The library clears internal bits: CPU_DISAS_ONE (translate.cpp 1289, 1303, 1566),
  CPU_SINGLE_STEP (imgui_wnd.cpp 89). -/
  | clearOne | clearStep
  /-- cpu_load_state: flags &= preserved mask (support.cpp 135) and the cache is cleared. -/
  | load

/-- The entries of the list at the positions kept. -/
def evict (keep : Nat → Bool) : List Bool → Nat → List Bool
  | [], _ => []
  | b :: l, n => if keep n then b :: evict keep l (n + 1) else evict keep l (n + 1)

def step (c : Cpu) : Op → Cpu
  | .set f => (setFlags c f).1
  | .translateHlt => { c with hltBlocks := ((c.flags &&& 0x1000#32) != 0#32) :: c.hltBlocks }
  | .evict keep => { c with hltBlocks := evict keep c.hltBlocks 0 }
  | .raiseTimeout => { c with flags := c.flags ||| 0x8#32 }
  | .raiseOne => { c with flags := c.flags ||| 0x80#32 }
  | .raiseStep => { c with flags := c.flags ||| 0x400#32 }
  | .clearOne => { c with flags := c.flags &&& ~~~0x80#32 }
  | .clearStep => { c with flags := c.flags &&& ~~~0x400#32 }
  | .load => { c with flags := c.flags &&& preservedMask, hltBlocks := [] }

def run (c : Cpu) (l : List Op) : Cpu := l.foldl step c

end Verif.SetFlags
