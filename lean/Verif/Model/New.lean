/-
cpu_new as far as the ram buffer is concerned: interface.cpp 117-161, 199-207 (cpu_free), build without XBOX_CPU.

The host's allocator is a parameter: `alloc size` is the address of a block of `size` bytes, or none
(std::bad_alloc, reported as no_memory). Sizes and addresses are 64 bit and wrap around.
-/
namespace Verif.New

inductive Status | success | invalidParameter | noMemory
  deriving DecidableEq, Repr

/-- What the successful call leaves: cpu->ram, cpu->ram_size, cpu->alignment_bias, and the block allocated. -/
structure Ram where
  ram : BitVec 64
  ramSize : BitVec 64
  bias : BitVec 64
  deriving DecidableEq, Repr

/-- interface.cpp 131-134, 136-142: `none` if the parameters are rejected. -/
def checked (ramsize align : BitVec 64) : Bool :=
  if ramsize = 0#64 then false
  else if align ≠ 1#64 ∧ align &&& (align - 1#64) ≠ 0#64 then false
  else true

/-- interface.cpp 136 and 148-152. -/
def allocSize (ramsize align : BitVec 64) : BitVec 64 := ramsize + 16#64 + align - 1#64

def place (ramsize align ptr : BitVec 64) : Ram :=
  let aligned := (ptr + align - 1#64) &&& ~~~(align - 1#64)
  { ram := aligned, ramSize := allocSize ramsize align, bias := aligned - ptr }

/-- interface.cpp 117-161. -/
def cpuNew (alloc : BitVec 64 → Option (BitVec 64)) (ramsize align : BitVec 64) : Status × Option Ram :=
  if checked ramsize align then
    match alloc (allocSize ramsize align) with
    | none => (.noMemory, none)
    | some ptr => (.success, some (place ramsize align ptr))
  else (.invalidParameter, none)

/-- interface.cpp 205: the pointer cpu_free passes to delete[]. -/
def freed (r : Ram) : BitVec 64 := r.ram - r.bias

end Verif.New
