import Verif.Model.Sticky
/-
The x87 register stack: core/fpu.cpp (all), interface.cpp 1386-1440 (read_ftags, write_ftags,
read_fstatus, write_fstatus), core/emitter/x64/jit.cpp 562-565, 2708-2742, 2753-2758 and the
instructions 3804-4210, 5891-5906, 6009-6028, 6031-6090, 6106-6135, 6205-6237, 6291-6330, 6345-6510,
6567-6590.

The numeric results of the host's FPU and its status word after an instruction are inputs.
Registers are arrays of 8 in the code; here functions on Nat, of which only indices below 8 exist
(C29_in_bounds shows that no other index is used). The instruction and data pointers
(fpu_update_ptr) and page faults of memory operands are in Model/FpuMem.lean, device-not-available checks in Model/Coproc.lean.
-/
namespace Verif.Fpu

/-- Registers read and written by FPU instructions (lib86cpu.hpp, regs; lib86cpu_priv.hpp fpu_data). -/
structure St where
  fctrl : BitVec 16
  fstatus : BitVec 16
  ftop : Nat
  tags : Nat → BitVec 8
  fr : Nat → BitVec 80

/-- interface.cpp 1386-1394: read_ftags, the loop from `i` on. -/
def readTagsFrom (tags : Nat → BitVec 8) : Nat → Nat → BitVec 16
  | 0, _ => 0#16
  | n + 1, i => (((tags i).setWidth 16) <<< (2 * i)) ||| readTagsFrom tags n (i + 1)

/-- interface.cpp 1386-1394: read_ftags. -/
def readTags (s : St) : BitVec 16 := readTagsFrom s.tags 8 0

/-- interface.cpp 1402-1409: write_ftags. -/
def writeTags (s : St) (v : BitVec 16) : St :=
  { s with tags := fun i => if i < 8 then ((v &&& (3#16 <<< (2 * i))) >>> (2 * i)).setWidth 8 else s.tags i }

/-- interface.cpp 1416-1422: read_fstatus. -/
def readStatus (s : St) : BitVec 16 := (s.fstatus &&& ~~~0x3800#16) ||| (BitVec.ofNat 16 s.ftop <<< 11)

/-- interface.cpp 1430-1435: write_fstatus. -/
def writeStatus (s : St) (v : BitVec 16) : St :=
  { s with ftop := ((v &&& 0x3800#16) >>> 11).toNat, fstatus := v }

/-- Array store. -/
def set {α : Type} (f : Nat → α) (i : Nat) (v : α) : Nat → α := fun j => if j = i then v else f j

/-- `(st_num + ftop) & 7` with a 32 bit st_num; `-1` is 0xFFFFFFFF. -/
def idx (s : St) (st : Nat) : Nat := (st + s.ftop) % 2 ^ 32 % 8

/-- fpu.cpp 24-28 (fpu_push), jit.cpp 564 (FPU_PUSH). -/
def push (s : St) : St := { s with ftop := (s.ftop + 7) % 8 }

/-- fpu.cpp 30-35 (fpu_pop). -/
def popTag (s : St) : St := { s with tags := set s.tags s.ftop 3#8, ftop := (s.ftop + 1) % 8 }

/-- fpu.cpp 42-54: the tag of a value. -/
def tagOf (v : BitVec 80) : BitVec 8 :=
  let exp := (v >>> 64).setWidth 16 &&& 0x7FFF#16
  let mant : BitVec 64 := v.setWidth 64
  if exp = 0#16 ∧ mant = 0#64 then 1#8
  else if exp = 0#16 ∨ exp = 0x7FFF#16 ∨ mant &&& 0x8000000000000000#64 = 0#64 then 2#8
  else 0#8

/-- fpu.cpp 37-59: fpu_update_tag. -/
def updateTag (s : St) (isPush : Bool) (st : Nat) : St :=
  { s with tags := set s.tags (idx s st) (if isPush then tagOf (s.fr (idx s st)) else 3#8) }

/-- fpu.cpp 61-65: fpu_is_tag_empty. -/
def isEmpty (s : St) (st : Nat) : Bool := s.tags (idx s st) == 3#8

/-- The indefinite value (internal.hpp 482-483). -/
def qnan : BitVec 80 := 0xFFFFC000000000000000#80

/-- fpu.cpp 79-97: fpu_stack_fault. -/
def stackFault (s : St) (exc : BitVec 16) : St :=
  let exc := exc &&& 0x27F#16
  let f1 := if (exc &&& ~~~s.fctrl) &&& 0x3F#16 = 0#16 then s.fstatus else s.fstatus ||| 0x80#16
  let f2 := f1 ||| exc
  { s with fstatus := if exc &&& 0x40#16 ≠ 0#16 ∧ exc &&& 0x200#16 = 0#16 then f2 &&& ~~~0x200#16 else f2 }

/-- The invalid operation exception is masked. -/
def masked (s : St) : Bool := s.fctrl &&& 1#16 != 0#16

/-- The masked response's store of the indefinite value to a physical register. -/
def setQnan (s : St) (i : Nat) : St := { s with fr := set s.fr i qnan, tags := set s.tags i 2#8 }

/-- fpu.cpp 99-118: fpu_stack_overflow. The Boolean is the return value. -/
def stackOverflow (s : St) : St × Bool :=
  if isEmpty s 0xFFFFFFFF = false then
    let s1 := if masked s then setQnan (push s) (push s).ftop else s
    (stackFault s1 0x241#16, true)
  else (s, false)

/-- fpu.cpp 120-139: fpu_stack_fault_fpatan. -/
def faultFpatan (s : St) : St × Bool :=
  if isEmpty s 0 || isEmpty s 1 then
    let s1 := if masked s then popTag (setQnan s (idx s 1)) else s
    (stackFault s1 0x41#16, true)
  else (s, false)

/-- fpu.cpp 141-172: fpu_stack_fault_fsincos. -/
def faultFsincos (s : St) : St × Bool :=
  if isEmpty s 0 || (isEmpty s 0xFFFFFFFF == false) then
    let s1 := if masked s then setQnan (push (setQnan s s.ftop)) (push s).ftop else s
    (stackFault s1 (if isEmpty s 0 then 0x41#16 else 0x241#16), true)
  else (s, false)

/-- fpu.cpp 174-205: fpu_stack_fault_fxch. -/
def faultFxch (s : St) (st : Nat) : St × Bool :=
  if isEmpty s 0 || isEmpty s st then
    let s1 := if masked s then
        let s2 := if isEmpty s 0 then setQnan s s.ftop else s
        if isEmpty s st then setQnan s2 (idx s st) else s2
      else s
    (stackFault s1 0x41#16, true)
  else (s, false)

/-- `pops_num` times fpu_pop. -/
def popN : Nat → St → St
  | 0, s => s
  | n + 1, s => popN n (popTag s)

/-- fpu.cpp 207-237: fpu_stack_fault_fcom. -/
def faultFcom (s : St) (e1 e2 : Bool) (pops : Nat) : St × Bool :=
  if e1 || e2 then
    let s0 := { s with fstatus := s.fstatus ||| 0x4500#16 }
    let s1 := if masked s then popN pops s0 else s0
    (stackFault s1 0x41#16, true)
  else (s, false)

/-- fpu.cpp 239-262: fpu_stack_underflow_reg. -/
def underflowReg (s : St) (src dst : Nat) (pop : Bool) : St × Bool :=
  if isEmpty s src then
    let s1 := if masked s then
        let s2 := setQnan s (idx s dst)
        if pop then popTag s2 else s2
      else s
    (stackFault s1 0x41#16, true)
  else (s, false)

/-- fpu.cpp 264-285: fpu_stack_underflow_mem; the second component tells whether the indefinite value
was stored to memory. -/
def underflowMem (s : St) (src : Nat) (pop : Bool) : St × Bool :=
  if isEmpty s src then
    let s1 := if masked s then (if pop then popTag s else s) else s
    (stackFault s1 0x41#16, true)
  else (s, false)

/-- jit.cpp 562-563: FPU_CLEAR_C1, FPU_CLEAR_C2. -/
def clr (s : St) (mask : BitVec 16) : St := { s with fstatus := s.fstatus &&& ~~~mask }

/-- jit.cpp 2535-2572: gen_fpu_exp_post_check, with the host's status word. -/
def post (s : St) (sw exc : BitVec 16) : St × Bool :=
  let r := Sticky.fpuPost s.fctrl s.fstatus sw exc
  ({ s with fstatus := r.1 }, r.2)

/-- jit.cpp 2724-2742: gen_fpu_store_stx. -/
def storeSt (s : St) (st : Nat) (v : BitVec 80) : St := { s with fr := set s.fr ((st + s.ftop) % 8) v }

/-- jit.cpp 2707-2722: gen_fpu_load_stx. -/
def loadSt (s : St) (st : Nat) : BitVec 80 := s.fr ((st + s.ftop) % 8)

/-- jit.cpp 3953-3957 and similar: fpu_update_tag<false>(0) followed by FPU_POP. -/
def popInstr (s : St) : St := { updateTag s false 0 with ftop := (s.ftop + 1) % 8 }

/-- FPU_PUSH, store to st0, fpu_update_tag<true>(0) (jit.cpp 3845-3849 and similar). -/
def pushVal (s : St) (v : BitVec 80) : St := updateTag (storeSt (push s) 0 v) true 0

/-- jit.cpp 3805-3852: FLD1, FLDPI, ... -/
def ldConst (s : St) (v : BitVec 80) : St :=
  let r := stackOverflow (clr s 0x200#16)
  if r.2 then r.1 else pushVal r.1 v

/-- jit.cpp 3991-4052: FLD from memory (with exception check) ... -/
def ldMem (s : St) (v : BitVec 80) (sw : BitVec 16) : St :=
  let r := stackOverflow (clr s 0x200#16)
  if r.2 then r.1 else
    let p := post r.1 sw 1#16
    if p.2 then p.1 else pushVal p.1 v

/-- ... and FILD (no exception check). -/
def ildMem (s : St) (v : BitVec 80) : St := ldConst s v

/-- jit.cpp 3976-3990: FLD ST(i). -/
def ldReg (s : St) (i : Nat) : St :=
  let r := stackOverflow (clr s 0x200#16)
  if r.2 then r.1 else
    let u := underflowReg r.1 i 0 false
    if u.2 then u.1 else pushVal u.1 (loadSt u.1 i)

/-- jit.cpp 3871-3889, 3953-3957: FST ST(i) and FSTP ST(i). -/
def stReg (s : St) (i : Nat) (pop : Bool) : St :=
  let u := underflowReg (clr s 0x200#16) 0 i pop
  if u.2 then u.1 else
    let s1 := if i = 0 then u.1 else updateTag (storeSt u.1 i (loadSt u.1 0)) true i
    if pop then popInstr s1 else s1

/-- jit.cpp 3890-3957: FST, FSTP, FIST, FISTP to memory. The status word is written after the store
to memory completed; page faults of the store are in Model/FpuMem.lean. -/
def stMem (s : St) (sw : BitVec 16) (pop : Bool) : St :=
  let u := underflowMem (clr s 0x200#16) 0 pop
  if u.2 then u.1 else
    let p := post u.1 sw 0x3F#16
    if p.2 then p.1 else if pop then popInstr p.1 else p.1

/-- jit.cpp 4070-4128: arithmetic between registers: to ST(0) (opcode D8), to ST(i) (DC), to ST(i)
with pop (DE). `v` is the result. -/
def arithReg (s : St) (i : Nat) (toI pop : Bool) (v : BitVec 80) (sw : BitVec 16) : St :=
  let u := underflowReg (clr s 0x200#16) i 0 false
  if u.2 then u.1 else
    let w := underflowReg u.1 0 0 false
    if w.2 then w.1 else
      let p := post w.1 sw 0x3F#16
      if p.2 then p.1 else
        let d := if toI then i else 0
        let s1 := updateTag (storeSt p.1 d v) true d
        if pop then popInstr s1 else s1

/-- jit.cpp 4129-4208 (arithmetic with memory), 6106-6135 (FCOS), 6394-6420 (FSIN), 6484-6510 (FSQRT):
`c2` says that the result is not stored (operand out of range; only FSIN, FCOS), `clearC2` is
FPU_CLEAR_C2. -/
def arithSt0 (s : St) (v : BitVec 80) (sw : BitVec 16) (trig : Bool) : St :=
  let u := underflowReg (clr s (if trig then 0x600#16 else 0x200#16)) 0 0 false
  if u.2 then u.1 else
    let p := post u.1 sw 0x3F#16
    if p.2 then p.1 else
      if trig ∧ p.1.fstatus &&& 0x400#16 ≠ 0#16 then p.1
      else updateTag (storeSt p.1 0 v) true 0

/-- jit.cpp 6010-6028: FCHS; C1 is cleared after the stack check. -/
def fchs (s : St) (v : BitVec 80) : St :=
  let u := underflowReg s 0 0 false
  if u.2 then u.1 else updateTag (storeSt (clr u.1 0x200#16) 0 v) true 0

/-- jit.cpp 6084-6089: the loop over pops_num. -/
def popInstrN : Nat → St → St
  | 0, s => s
  | n + 1, s => popInstrN n (popInstr s)

/-- jit.cpp 6031-6090: FCOM, FCOMP, FCOMPP with a register (`some i`) or memory (`none`). -/
def fcom (s : St) (src : Option Nat) (pops : Nat) (sw : BitVec 16) : St :=
  let s0 := clr s 0x200#16
  let u := faultFcom s0 (isEmpty s0 0) (src.elim false (isEmpty s0)) pops
  if u.2 then u.1 else
    let p := post u.1 sw 0x3F#16
    if p.2 then p.1 else popInstrN pops p.1

/-- jit.cpp 6374-6392: FPATAN; the tag of the destination ST(1) is not updated. -/
def fpatan (s : St) (v : BitVec 80) (sw : BitVec 16) : St :=
  let u := faultFpatan (clr s 0x200#16)
  if u.2 then u.1 else
    let p := post u.1 sw 0x3F#16
    if p.2 then p.1 else popInstr (storeSt p.1 1 v)

/-- jit.cpp 6436-6478: FSINCOS. -/
def fsincos (s : St) (sin cos : BitVec 80) (sw : BitVec 16) : St :=
  let u := faultFsincos (clr s 0x600#16)
  if u.2 then u.1 else
    let p := post u.1 sw 0x3F#16
    if p.2 then p.1 else
      if p.1.fstatus &&& 0x400#16 ≠ 0#16 then p.1
      else updateTag (updateTag (storeSt (push (storeSt p.1 0 sin)) 0 cos) true 0) true 1

/-- jit.cpp 6568-6590: FXCH; the tags are not exchanged. -/
def fxch (s : St) (i : Nat) : St :=
  let u := faultFxch (clr s 0x200#16) i
  if u.2 then u.1 else
    let a := loadSt u.1 0
    let b := loadSt u.1 i
    storeSt (storeSt u.1 0 b) i a

/-- jit.cpp 6303-6330: FNINIT. -/
def fninit (s : St) : St :=
  { s with fctrl := 0x37F#16, fstatus := 0#16, ftop := 0, tags := fun i => if i < 8 then 3#8 else s.tags i }

/-- jit.cpp 5891-5906: EMMS. -/
def emms (s : St) : St := { s with ftop := 0, tags := fun i => if i < 8 then 3#8 else s.tags i }

/-- jit.cpp 2753-2758: the transition to MMX. -/
def toMmx (s : St) : St := { s with ftop := 0, tags := fun i => if i < 8 then 0#8 else s.tags i }

/-- jit.cpp 6291-6300: FNCLEX. -/
def fnclex (s : St) : St := clr s 0x80FF#16

/-- jit.cpp 6214-6236: FLDCW. -/
def fldcw (s : St) (v : BitVec 16) : St :=
  let c := v ||| 0x40#16
  { s with fctrl := c,
           fstatus := if s.fstatus &&& ~~~c &&& 0x3F#16 ≠ 0#16 then s.fstatus ||| 0x80#16
                      else s.fstatus &&& ~~~0x80#16 }

/-- fpu.cpp 11-22: fpu_init at reset, the registers being zero. -/
def init : St := { fctrl := 0x40#16, fstatus := 0#16, ftop := 0, tags := fun i => if i < 8 then 1#8 else 0#8, fr := fun _ => 0#80 }

/-- Everything that changes the FPU state. -/
inductive Op where
  | ldConst (v : BitVec 80)
  | ldMem (v : BitVec 80) (sw : BitVec 16)
  | ldReg (i : Nat)
  | stReg (i : Nat) (pop : Bool)
  | stMem (sw : BitVec 16) (pop : Bool)
  | arithReg (i : Nat) (toI pop : Bool) (v : BitVec 80) (sw : BitVec 16)
  | arithSt0 (v : BitVec 80) (sw : BitVec 16) (trig : Bool)
  | fchs (v : BitVec 80)
  | fcom (src : Option Nat) (pops : Nat) (sw : BitVec 16)
  | fpatan (v : BitVec 80) (sw : BitVec 16)
  | fsincos (sin cos : BitVec 80) (sw : BitVec 16)
  | fxch (i : Nat)
  | fninit | emms | fnclex
  | fldcw (v : BitVec 16)
  | setStatus (v : BitVec 16)
  | setTags (v : BitVec 16)

/-- jit.cpp 2691-2705: a waiting instruction with ES set raises #MF instead of executing. -/
def waits : Op → Bool
  | .fninit | .fnclex | .setStatus _ | .setTags _ => false
  | _ => true

/-- One operation; with a pending exception a waiting instruction does nothing (#MF). -/
def step (s : St) (op : Op) : St :=
  if waits op && s.fstatus &&& 0x80#16 != 0#16 then s else
  match op with
  | .ldConst v => ldConst s v
  | .ldMem v sw => ldMem s v sw
  | .ldReg i => ldReg s i
  | .stReg i pop => stReg s i pop
  | .stMem sw pop => stMem s sw pop
  | .arithReg i t p v sw => arithReg s i t p v sw
  | .arithSt0 v sw t => arithSt0 s v sw t
  | .fchs v => fchs s v
  | .fcom src p sw => fcom s src p sw
  | .fpatan v sw => fpatan s v sw
  | .fsincos a b sw => fsincos s a b sw
  | .fxch i => fxch s i
  | .fninit => fninit s
  | .emms => emms s
  | .fnclex => fnclex s
  | .fldcw v => fldcw s v
  | .setStatus v => writeStatus s v
  | .setTags v => writeTags s v

/-- A history. -/
def run (s : St) (l : List Op) : St := l.foldl step s

end Verif.Fpu
