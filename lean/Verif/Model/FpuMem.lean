/-
FPU instructions with a memory operand, and the instruction and data pointers: core/emitter/x64/jit.cpp 2581-2606 (gen_update_fpu_ptr),
2680-2690 (gen_fpu_check_stack_underflow to memory), 3890-3957 (FST, FSTP, FIST, FISTP), 3991-4052 (FLD, FILD), 4133-4208 (arithmetic),
6060-6075 (FCOM), 6303-6328 (FNINIT); core/fpu.cpp 66-77 (fpu_update_ptr), 260-281 (fpu_stack_underflow_mem); emitter_common.cpp 230-260
(get_seg_prfx_offset).

The FPU registers are those of Model/Fpu.lean.  Memory is a type with a store that may fault; the conversion the host makes to the size
of the operand, and the status word it leaves, are parameters.
-/
import Verif.Model.Fpu

namespace Verif.FpuMem
open Verif.Fpu

inductive SegR where
  | es | cs | ss | ds | fs | gs
  deriving DecidableEq

/-- The pointers (lib86cpu.hpp, regs_t). -/
structure Ptrs where
  fcs : BitVec 16
  fip : BitVec 32
  fds : BitVec 16
  fdp : BitVec 32
  fop : BitVec 16
  deriving DecidableEq

/-- What zydis says about the instruction: opcode, modrm byte and segment override prefix. -/
structure Ins where
  opcode : BitVec 8
  modrm : BitVec 8
  over : Option SegR

/-- The cpu context: its 16 bit words by offset, the offsets of the selectors in it, and EIP. -/
structure Cx where
  word : BitVec 16 → BitVec 16
  off : SegR → BitVec 16
  eip : BitVec 32

/-- A selector. -/
def Cx.sel (c : Cx) (r : SegR) : BitVec 16 := c.word (c.off r)

/-- jit.cpp 2594: a memory operand. -/
def Ins.isMem (i : Ins) : Bool := i.modrm >>> 6 != 3#8

/-- emitter_common.cpp 230-260, get_seg_prfx_offset. -/
def Ins.seg (i : Ins) : SegR := i.over.getD .ds

/-- jit.cpp 2594-2604: the argument in RDX; `ebx` is the address of the operand. -/
def ptrArg (c : Cx) (i : Ins) (ebx : BitVec 32) : BitVec 64 :=
  let fop : BitVec 64 := ((i.modrm.setWidth 64 ||| (i.opcode.setWidth 64 <<< 8)) &&& 0x7FF#64) <<< 48
  if i.isMem then (1#64 <<< 63) ||| fop ||| ((c.off i.seg).setWidth 64 <<< 32) ||| ebx.setWidth 64 else fop

/-- fpu.cpp 66-77, fpu_update_ptr. -/
def updatePtr (c : Cx) (a : BitVec 64) (p : Ptrs) : Ptrs :=
  let p := { p with fcs := c.sel .cs, fip := c.eip, fop := ((a >>> 48) &&& 0x7FF#64).setWidth 16 }
  if a &&& (1#64 <<< 63) ≠ 0#64 then { p with fds := c.word (((a >>> 32) &&& 0xFFFF#64).setWidth 16), fdp := (a &&& 0xFFFFFFFF#64).setWidth 32 }
  else p

/-- The FPU, its pointers and the memory. -/
structure X (μ : Type) where
  fpu : St
  ptr : Ptrs
  mem : μ

/-- The instruction completes (perhaps with a pending FPU exception), or its memory access faults. -/
inductive Out (μ : Type) where
  | done (x : X μ)
  | fault (x : X μ)

/-- What the host's FSTP or FISTP gives: the value to store and the status word. -/
structure Conv where
  val : BitVec 80 → BitVec 80
  sw : BitVec 80 → BitVec 16
  qnan : BitVec 80

/-- jit.cpp 3890-3957: FST, FSTP, FIST and FISTP to memory.  `lin` is the address get_rm leaves in EDX; `junk` is what the call of
fpu_update_ptr leaves there, which is what fpu_stack_underflow_mem gets as its address. -/
def fstMem {μ : Type} (store : BitVec 32 → BitVec 80 → μ → Option μ) (c : Cx) (i : Ins) (k : Conv) (lin junk : BitVec 32) (pop : Bool) (x : X μ) : Out μ :=
  let p := updatePtr c (ptrArg c i lin) x.ptr
  let s := clr x.fpu 0x200#16
  if isEmpty s 0 then
    if masked s then
      match store junk k.qnan x.mem with
      | none => .fault ⟨s, p, x.mem⟩
      | some m => .done ⟨stackFault (if pop then popTag s else s) 0x41#16, p, m⟩
    else .done ⟨stackFault s 0x41#16, p, x.mem⟩
  else
    let v := loadSt s 0
    let r := post s (k.sw v) 0x3F#16
    if r.2 then .done ⟨r.1, p, x.mem⟩
    else match store lin (k.val v) x.mem with
      | none => .fault ⟨s, p, x.mem⟩
      | some m => .done ⟨if pop then popInstr r.1 else r.1, p, m⟩

/-- jit.cpp 3991-4052, 4133-4208, 6060-6075: the instructions that read memory load their operand first; `f` is the rest of the instruction
(ldMem, ildMem, arithSt0 and fcom of Model/Fpu.lean). -/
def readMem {μ : Type} (load : BitVec 32 → μ → Option (BitVec 80)) (c : Cx) (i : Ins) (lin : BitVec 32) (f : BitVec 80 → St → St) (x : X μ) : Out μ :=
  match load lin x.mem with
  | none => .fault x
  | some v => .done ⟨f v x.fpu, updatePtr c (ptrArg c i lin) x.ptr, x.mem⟩

/-- The instructions without a memory operand: `f` is the operation on the registers. -/
def regIns {μ : Type} (c : Cx) (i : Ins) (ebx : BitVec 32) (f : St → St) (x : X μ) : Out μ :=
  .done ⟨f x.fpu, updatePtr c (ptrArg c i ebx) x.ptr, x.mem⟩

/-- jit.cpp 6303-6328: FNINIT. -/
def fninitX {μ : Type} (x : X μ) : Out μ := .done ⟨fninit x.fpu, ⟨0#16, 0#32, 0#16, 0#32, 0#16⟩, x.mem⟩

end Verif.FpuMem
