import Verif.Model.EmitSimd
/-
What SSE and MMX instructions are to do, in terms of the guest's registers and memory.
-/
namespace Verif.Simd.Spec
open Host

/-- The four lanes of a register, from the lowest. -/
def lane (v : BitVec 128) (i : Fin 4) : BitVec 32 := v.extractLsb' (32 * i.val) 32
def ofLanes (f : Fin 4 → BitVec 32) : BitVec 128 := f 3 ++ f 2 ++ f 1 ++ f 0

/-- A register set, the others as they were. -/
def withX (v : V) (i : Fin 8) (q : BitVec 128) : V := { v with xmm := fun j => if j = i then q else v.xmm j }

/-- How an instruction ends: done, or with an exception; the state it leaves. -/
inductive Res where
  | done (g : G) (v : V)
  | exc (y : Why) (g : G) (v : V)

/-- Code that ends that way, the host's MXCSR being as it was. -/
def Does (w : VEnv) (code : List I) (s : S) : Res → Prop
  | .done g v => ∃ s', run w 0 code s = .next 0 s' ∧ s'.h.r .rcx = w.e.ctx ∧ s'.h.g = g ∧ s'.v = v ∧ s'.mx = s.mx
  | .exc y g v => run w 0 code s = .stop y g v s.mx

/-- 16 bytes of an operand: memory operands of the instructions that are not MOVUPS have to be at a multiple of 16. -/
def read128 (w : VEnv) (aligned : Bool) (s : S) (rm : Rm) (k : BitVec 128 → Res) : Res :=
  match rm with
  | .reg i => k (s.v.xmm i)
  | .mem a =>
    if aligned = true ∧ a.lin.toNat % 16 ≠ 0 then .exc .gp s.h.g s.v
    else if w.e.ok a.lin 16 false then k (BitVec.ofNat 128 (Guest.load s.h.g.mem a.lin 16))
    else .exc .pf s.h.g s.v

/-- 16 bytes stored to an operand. -/
def write128 (w : VEnv) (aligned : Bool) (s : S) (rm : Rm) (q : BitVec 128) : Res :=
  match rm with
  | .reg i => .done s.h.g (withX s.v i q)
  | .mem a =>
    if aligned = true ∧ a.lin.toNat % 16 ≠ 0 then .exc .gp s.h.g s.v
    else if w.e.ok a.lin 16 true then .done { s.h.g with mem := Guest.store s.h.g.mem a.lin 16 q.toNat } s.v
    else .exc .pf s.h.g s.v

/-- Fewer bytes of memory. -/
def readMem (w : VEnv) (s : S) (z : Sz) (a : Ea) (k : BitVec z.bits → Res) : Res :=
  if w.e.ok a.lin z.bytes false then k (BitVec.ofNat z.bits (Guest.load s.h.g.mem a.lin z.bytes)) else .exc .pf s.h.g s.v
def writeMem (w : VEnv) (s : S) (z : Sz) (a : Ea) (q : BitVec z.bits) (v : V) : Res :=
  if w.e.ok a.lin z.bytes true then .done { s.h.g with mem := Guest.store s.h.g.mem a.lin z.bytes q.toNat } v else .exc .pf s.h.g s.v

/-- SHUFPS: the two low lanes are lanes of the destination, the two high lanes of the source, chosen by two bits each. -/
def shuffle (imm : BitVec 8) (d s : BitVec 128) : BitVec 128 :=
  ofLanes fun i => lane (if i.val < 2 then d else s) ⟨imm.toNat / 4 ^ i.val % 4, Nat.mod_lt _ (by decide)⟩
/-- UNPCKHPS, UNPCKLPS: lanes of destination and source in turn, from the high or the low half. -/
def interleave (high : Bool) (d s : BitVec 128) : BitVec 128 :=
  ofLanes fun i => lane (if i.val % 2 = 0 then d else s) ⟨i.val / 2 + (if high then 2 else 0), by have := i.isLt; split <;> omega⟩
/-- MOVSS and the scalar operations: the lowest lane. -/
def withLow (d : BitVec 128) (q : BitVec 32) : BitVec 128 := ofLanes fun i => if i = 0 then q else lane d i
/-- MOVLPS, MOVHPS: half a register. -/
def withHalf (high : Bool) (d : BitVec 128) (q : BitVec 64) : BitVec 128 := if high then q ++ d.extractLsb' 0 64 else d.extractLsb' 64 64 ++ q
def halfOf (high : Bool) (d : BitVec 128) : BitVec 64 := if high then d.extractLsb' 64 64 else d.extractLsb' 0 64

/-- An operation on the lanes (all, or the lowest): the result, and the flags raised. -/
def lanes (f : BitVec 32 → BitVec 32 → BitVec 32 × BitVec 6) (packed : Bool) (d s : BitVec 128) : BitVec 128 :=
  ofLanes fun i => if packed = true ∨ i = 0 then (f (lane d i) (lane s i)).1 else lane d i
def flags (f : BitVec 32 → BitVec 32 → BitVec 32 × BitVec 6) (packed : Bool) (d s : BitVec 128) : BitVec 6 :=
  let r := fun i => (f (lane d i) (lane s i)).2
  if packed then r 0 ||| r 1 ||| r 2 ||| r 3 else r 0

/-- The second operand of an operation on lanes: all four (the address a multiple of 16), or the lowest. -/
def operand (w : VEnv) (packed : Bool) (s : S) (rm : Rm) (k : BitVec 128 → Res) : Res :=
  match rm with
  | .reg i => k (s.v.xmm i)
  | .mem a => if packed then read128 w true s (.mem a) k else readMem w s .d a fun q => k (q.setWidth 128)

/-- The end of an operation that raised `fl`, which leaves `g` and `v'` if it completes: MXCSR has the flags of this operation (not those of earlier ones, C63), and if one of
them is not masked (bits 7 to 12 of MXCSR) only the flags change and #XF is raised, or #UD without CR4.OSXMMEXCPT. -/
def flagged (v : V) (fl : BitVec 6) : V := { v with mxcsr := (v.mxcsr &&& 0xFFFFFFC0#32) ||| fl.setWidth 32 }
def ending (osx : Bool) (s : S) (fl : BitVec 6) (g : G) (v' : V) : Res :=
  if ∃ k : Fin 6, fl.getLsbD k.val = true ∧ s.v.mxcsr.getLsbD (7 + k.val) = false then .exc (if osx then .xf else .ud) s.h.g (flagged s.v fl)
  else .done g (flagged v' fl)

/-- After an MMX instruction: all registers valid, the stack's top at register 0. -/
def mmxMode (v : V) : V := { v with tag := fun _ => 0#8, top := 0#16 }
/-- MMX register `i` set: the exponent of the register below is all ones. -/
def withMm (v : V) (i : Fin 8) (q : BitVec 64) : V :=
  { v with lo := fun j => if j = i then q else v.lo j, hi := fun j => if j = i then 0xFFFF#16 else v.hi j }
/-- A pending exception of the FPU is reported first. -/
def afterMf (s : S) (r : Res) : Res := if s.v.fsw.getLsbD 7 then .exc .mf s.h.g s.v else r

end Verif.Simd.Spec
