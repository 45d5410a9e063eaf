/-
The host code emitted for the x87 instructions: core/emitter/x64/jit.cpp 436-438, 559-565 (macros), 2535-2590 (gen_fpu_exp_post_check,
gen_set_host_fpu_ctx), 2691-2742 (gen_check_fpu_unmasked_exp, gen_fpu_load_stx, gen_fpu_store_stx), 3804-3852 (fpu_load_constant), 3855-3960
(fpu_store), 3963-4056 (fpu_load), 4058-4213 (fpu_arithmetic), 6012-6090 (FCHS, FCOM), 6103-6135 (FCOS), 6376-6510 (FPATAN, FSIN, FSINCOS,
FSQRT), 6568-6590 (FXCH); and the writers of the control word the host runs with: core/fpu.cpp 11-22, core/fpu_instructions.cpp 58-62,
jit.cpp 6203-6238 (FLDCW), 6305-6330 (FNINIT), core/translate.cpp 414 (shadow_mxcsr).

The host's FPU is a stack of values with a control and a status word; what its arithmetic computes is a parameter.  The checks of stack
faults are the functions of Model/Fpu.lean.  Page faults and fpu_update_ptr are in Model/FpuMem.lean, EM and TS in Model/Coproc.lean.
-/
import Verif.Model.Fpu

namespace Verif.EmitFpu
open Verif.Fpu

/-- The arithmetic of fpu_arithmetic (jit.cpp 4061). -/
inductive Bin where
  | sub | add | mul | divr | div | subr
  deriving DecidableEq
/-- FSQRT, FSIN and FCOS. -/
inductive Un where
  | sqrt | sin | cos
  deriving DecidableEq
/-- Memory formats: integers of 16, 32, 64 bits; reals of 32, 64, 80 bits. -/
inductive Fmt where
  | i16 | i32 | i64 | r32 | r64 | r80
  deriving DecidableEq

/-- jit.cpp 4171, 4022, 4031: FILD, FIADD, ... are used for these. -/
def Fmt.isInt : Fmt → Bool
  | .i16 | .i32 | .i64 => true
  | _ => false

/-- What the host's FPU computes, for a control word: the value and the flags (exceptions and C0-C3) of its instructions.  Binary
operations take ST0 first. -/
structure Alu where
  bin : Bin → BitVec 16 → BitVec 80 → BitVec 80 → BitVec 80 × BitVec 16
  binM : Bin → Fmt → BitVec 16 → BitVec 80 → BitVec 80 → BitVec 80 × BitVec 16
  un : Un → BitVec 16 → BitVec 80 → BitVec 80 × BitVec 16
  chs : BitVec 80 → BitVec 80
  sincos : BitVec 16 → BitVec 80 → BitVec 80 × BitVec 80 × BitVec 16
  patan : BitVec 16 → BitVec 80 → BitVec 80 → BitVec 80 × BitVec 16
  com : BitVec 16 → BitVec 80 → BitVec 80 → BitVec 16
  comM : Fmt → BitVec 16 → BitVec 80 → BitVec 80 → BitVec 16
  const : Fin 7 → BitVec 16 → BitVec 80
  ld : Fmt → BitVec 16 → BitVec 80 → BitVec 80 × BitVec 16
  st : Fmt → BitVec 16 → BitVec 80 → BitVec 80 × BitVec 16

/-- The host's FPU (registers with the top first, TOP, control and status word), the local variables 0 and 5, R11W, the guest's memory
operand, what was stored to the guest's memory, and the guest's FPU with the control word for the host (lib86cpu_priv.hpp 179). -/
structure H where
  stk : List (BitVec 80)
  top : BitVec 3
  cw : BitVec 16
  sw : BitVec 16
  loc : BitVec 80
  saved : BitVec 16
  r11 : BitVec 16
  mem : BitVec 80
  out : Option (BitVec 80)
  g : St
  frp : BitVec 16

/-- The host's instructions, and the emitted sequences that access guest registers. -/
inductive HI where
  | emms | fnclex | saveCw | loadFrp | restore
  | ldSt (n : Nat) | stSt (n : Nat)
  | ldMem | ld (f : Fmt) | st (f : Fmt) | storeMem | wrStatus
  | bin (o : Bin) | binM (o : Bin) (f : Fmt) | un (u : Un) | chs | sincos | patan | compp | compM (f : Fmt) | const (k : Fin 7) | xch
  | clr (m : BitVec 16) | push | pop | tag (b : Bool) (n : Nat)

/-- Emitted code: instructions, calls of the checks (TEST EAX, EAX; BR_NE end_instr), gen_fpu_exp_post_check<true> and <false> with the
code for unmasked exceptions, and the test of C2 of FSIN, FCOS and FSINCOS. -/
inductive Code where
  | nil
  | seq (i : HI) (k : Code)
  | check (f : St → St × Bool) (k : Code)
  | post (m : BitVec 16) (un k : Code)
  | postL (m : BitVec 16) (un k : Code)
  | c2 (far k : Code)

/-- A push onto the host's registers; none if they are full (a stack fault of the host). -/
def H.pushH (h : H) (v : BitVec 80) : Option H :=
  if h.stk.length < 8 then some { h with stk := v :: h.stk, top := h.top - 1#3 } else none

/-- A pop. -/
def H.popH (h : H) : Option (BitVec 80 × H) :=
  match h.stk with
  | [] => none
  | v :: t => some (v, { h with stk := t, top := h.top + 1#3 })

/-- The status word after an instruction: exceptions accumulate, the condition codes are the instruction's. -/
def H.flags (h : H) (f : BitVec 16) : H := { h with sw := (h.sw &&& 0x3F#16) ||| f }

/-- jit.cpp 2711-2719: the register of gen_fpu_load_stx and gen_fpu_store_stx. -/
def reg (s : St) (n : Nat) : Nat := if n = 0 then s.ftop else (s.ftop + n) % 8

/-- FNSTSW. -/
def H.fnstsw (h : H) : BitVec 16 := h.sw ||| (h.top.setWidth 16 <<< 11)

/-- One of them. -/
def exec (A : Alu) (h : H) : HI → Option H
  | .emms => some { h with stk := [] }
  | .fnclex => some { h with sw := h.sw &&& 0x7F00#16 }
  | .saveCw => some { h with saved := h.cw }
  | .loadFrp => some { h with cw := h.frp }
  | .restore => some { h with cw := h.saved }
  | .ldSt n => h.pushH (h.g.fr (reg h.g n))
  | .stSt n => h.popH.map fun (v, h) => { h with g := { h.g with fr := set h.g.fr (reg h.g n) v } }
  | .ldMem => some { h with loc := h.mem }
  | .ld f => (h.pushH (A.ld f h.cw h.loc).1).map fun h' => h'.flags (A.ld f h.cw h.loc).2
  | .st f => h.popH.map fun (v, h') => { h'.flags (A.st f h.cw v).2 with loc := (A.st f h.cw v).1 }
  | .storeMem => some { h with out := some h.loc }
  | .wrStatus => some { h with g := { h.g with fstatus := h.r11 } }
  | .bin o => match h.stk with
    | a :: b :: t => some { h.flags (A.bin o h.cw a b).2 with stk := (A.bin o h.cw a b).1 :: b :: t }
    | _ => none
  | .binM o f => match h.stk with
    | a :: t => some { h.flags (A.binM o f h.cw a h.loc).2 with stk := (A.binM o f h.cw a h.loc).1 :: t }
    | _ => none
  | .un u => match h.stk with
    | a :: t => some { h.flags (A.un u h.cw a).2 with stk := (A.un u h.cw a).1 :: t }
    | _ => none
  | .chs => match h.stk with
    | a :: t => some { h with stk := A.chs a :: t }
    | _ => none
  | .sincos => match h.stk with
    | a :: t =>
      let r := A.sincos h.cw a
      if r.2.2 &&& 0x400#16 ≠ 0#16 then some (h.flags r.2.2)
      else ({ h.flags r.2.2 with stk := r.1 :: t } : H).pushH r.2.1
    | _ => none
  | .patan => match h.stk with
    | a :: b :: t => some { h.flags (A.patan h.cw a b).2 with stk := (A.patan h.cw a b).1 :: t, top := h.top + 1#3 }
    | _ => none
  | .compp => match h.stk with
    | a :: b :: t => some { h.flags (A.com h.cw a b) with stk := t, top := h.top + 2#3 }
    | _ => none
  | .compM f => match h.stk with
    | a :: t => some { h.flags (A.comM f h.cw a h.loc) with stk := t, top := h.top + 1#3 }
    | _ => none
  | .const k => h.pushH (A.const k h.cw)
  | .xch => match h.stk with
    | a :: b :: t => some { h with stk := b :: a :: t }
    | _ => none
  | .clr m => some { h with g := Fpu.clr h.g m }
  | .push => some { h with g := Fpu.push h.g }
  | .pop => some { h with g := { h.g with ftop := (h.g.ftop + 1) % 8 } }
  | .tag b n => some { h with g := updateTag h.g b n }

/-- Running emitted code. -/
def run (A : Alu) : Code → H → Option H
  | .nil, h => some h
  | .seq i k, h => (exec A h i).bind (run A k)
  | .check f k, h => if (f h.g).2 then some { h with g := (f h.g).1 } else run A k { h with g := (f h.g).1 }
  | .post m un k, h =>
    let r := Sticky.fpuPost h.g.fctrl h.g.fstatus h.fnstsw m
    let h' := { h with g := { h.g with fstatus := r.1 } }
    if r.2 then run A un h' else run A k h'
  | .postL m un k, h =>
    let r := Sticky.fpuPost h.g.fctrl h.g.fstatus h.fnstsw m
    if r.2 then run A un { h with r11 := r.1, g := { h.g with fstatus := r.1 } } else run A k { h with r11 := r.1 }
  | .c2 far k, h => if h.g.fstatus &&& 0x400#16 ≠ 0#16 then run A far h else run A k h

/-- jit.cpp 2573-2581, gen_set_host_fpu_ctx. -/
def setCtx (k : Code) : Code := .seq .emms (.seq .fnclex (.seq .saveCw (.seq .loadFrp k)))

/-- jit.cpp 2691-2705, gen_check_fpu_unmasked_exp; the exception ends the code. -/
def pending (s : St) : St × Bool := (s, s.fstatus &&& 0x80#16 != 0#16)

/-- A dummy pop. -/
def drop (k : Code) : Code := .seq (.st .r80) k
/-- RESTORE_FPU_CTX; BR_UNCOND(end_instr). -/
def leave : Code := .seq .restore .nil
/-- fpu_update_tag<false>(0); FPU_POP. -/
def popg (k : Code) : Code := .seq (.tag false 0) (.seq .pop k)
/-- The loop of FCOM (jit.cpp 6082-6087). -/
def popgs : Nat → Code
  | 0 => .nil
  | n + 1 => popg (popgs n)

/-- The register forms of the arithmetic: D8, DC and DE. -/
inductive Form where
  | d8 | dc | de
  deriving DecidableEq

/-- The instructions. -/
inductive Ins where
  | const (k : Fin 7)
  | fldReg (i : Nat) | fldMem (f : Fmt)
  | fstReg (i : Nat) (pop : Bool) | fstMem (f : Fmt) (pop : Bool)
  | arith (o : Bin) (form : Form) (i : Nat) | arithMem (o : Bin) (f : Fmt)
  | un (u : Un) | chs
  | comReg (i pops : Nat) | comMem (f : Fmt) (pops : Nat)
  | patan | sincos | xch (i : Nat)

/-- jit.cpp 3804-3852, fpu_load_constant. -/
def emitConst (k : Fin 7) : Code :=
  .seq (.clr 0x200#16) (.check stackOverflow (setCtx (.seq (.const k) (.seq .push (.seq (.stSt 0) (.seq .restore (.seq (.tag true 0) .nil)))))))

/-- jit.cpp 3976-3991, 4050-4053: FLD ST(i). -/
def emitFldReg (i : Nat) : Code :=
  .seq (.clr 0x200#16) (.check stackOverflow (.check (underflowReg · i 0 false)
    (setCtx (.seq (.ldSt i) (.seq .push (.seq (.stSt 0) (.seq .restore (.seq (.tag true 0) .nil))))))))

/-- jit.cpp 3992-4053: FLD and FILD from memory. -/
def emitFldMem (f : Fmt) : Code :=
  let k : Code := .seq .push (.seq (.stSt 0) (.seq .restore (.seq (.tag true 0) .nil)))
  .seq .ldMem (.seq (.clr 0x200#16) (.check stackOverflow (setCtx (.seq (.ld f)
    (if f.isInt then k else .post 1#16 (.seq (.st f) leave) k)))))

/-- jit.cpp 3873-3889, 3953-3957: FST ST(i), FSTP ST(i). -/
def emitFstReg (i : Nat) (pop : Bool) : Code :=
  let e : Code := if pop then popg .nil else .nil
  .seq (.clr 0x200#16) (.check (underflowReg · 0 i pop)
    (if i = 0 then e else setCtx (.seq (.ldSt 0) (.seq (.stSt i) (.seq .restore (.seq (.tag true i) e))))))

/-- jit.cpp 3890-3957: FST, FSTP, FIST, FISTP to memory. -/
def emitFstMem (f : Fmt) (pop : Bool) : Code :=
  .seq (.clr 0x200#16) (.check (underflowMem · 0 pop) (setCtx (.seq (.ldSt 0) (.seq (.st f) (.postL 0x3F#16 leave
    (.seq .restore (.seq .storeMem (.seq .wrStatus (if pop then popg .nil else .nil)))))))))

/-- jit.cpp 4073-4132: arithmetic between registers. -/
def emitArith (o : Bin) (form : Form) (i : Nat) : Code :=
  let d := if form = .d8 then 0 else i
  .seq (.clr 0x200#16) (.check (underflowReg · i 0 false) (.check (underflowReg · 0 0 false) (setCtx
    (.seq (.ldSt (if form = .d8 then i else 0)) (.seq (.ldSt d) (.seq (.bin o) (.post 0x3F#16 (drop (drop leave))
      (.seq (.stSt d) (drop (.seq .restore (.seq (.tag true d) (if form = .de then popg .nil else .nil))))))))))))

/-- jit.cpp 4133-4210: arithmetic with memory. -/
def emitArithMem (o : Bin) (f : Fmt) : Code :=
  .seq .ldMem (.seq (.clr 0x200#16) (.check (underflowReg · 0 0 false) (setCtx (.seq (.ldSt 0) (.seq (.binM o f) (.post 0x3F#16 (drop leave)
    (.seq (.stSt 0) (.seq .restore (.seq (.tag true 0) .nil)))))))))

/-- jit.cpp 6012-6030, FCHS. -/
def emitChs : Code :=
  .check (underflowReg · 0 0 false) (.seq (.clr 0x200#16) (setCtx (.seq (.ldSt 0) (.seq .chs (.seq (.stSt 0) (.seq .restore (.seq (.tag true 0) .nil)))))))

/-- The end of FCOM, FCOMP, FCOMPP (jit.cpp 6075-6088). -/
def comEnd (pops : Nat) : Code := .post 0x3F#16 leave (.seq .restore (popgs pops))

/-- jit.cpp 6046-6059: with a register. -/
def emitComReg (i pops : Nat) : Code :=
  .seq (.clr 0x200#16) (.check (fun s => faultFcom s (isEmpty s 0) (isEmpty s i) pops)
    (setCtx (.seq (.ldSt i) (.seq (.ldSt 0) (.seq .compp (comEnd pops))))))

/-- jit.cpp 6060-6074: with memory. -/
def emitComMem (f : Fmt) (pops : Nat) : Code :=
  .seq .ldMem (.seq (.clr 0x200#16) (.check (fun s => faultFcom s (isEmpty s 0) false pops)
    (setCtx (.seq (.ldSt 0) (.seq (.compM f) (comEnd pops))))))

/-- jit.cpp 6103-6135 (FCOS), 6409-6440 (FSIN), 6484-6512 (FSQRT). -/
def emitUn (u : Un) : Code :=
  let e : Code := .seq (.stSt 0) (.seq .restore (.seq (.tag true 0) .nil))
  let c : Code := .check (underflowReg · 0 0 false) (setCtx (.seq (.ldSt 0) (.seq (.un u) (.post 0x3F#16 (drop leave)
    (if u = .sqrt then e else .c2 .nil e)))))
  .seq (.clr 0x200#16) (if u = .sqrt then c else .seq (.clr 0x400#16) c)

/-- jit.cpp 6376-6405, FPATAN. -/
def emitPatan : Code :=
  .seq (.clr 0x200#16) (.check faultFpatan (setCtx (.seq (.ldSt 1) (.seq (.ldSt 0) (.seq .patan (.post 0x3F#16 (drop leave)
    (.seq (.stSt 1) (.seq .restore (popg .nil)))))))))

/-- jit.cpp 6443-6482, FSINCOS. -/
def emitSincos : Code :=
  .seq (.clr 0x200#16) (.seq (.clr 0x400#16) (.check faultFsincos (setCtx (.seq (.ldSt 0) (.seq .sincos (.post 0x3F#16 (drop (drop leave))
    (.c2 .nil (.seq .xch (.seq (.stSt 0) (.seq .push (.seq (.stSt 0) (.seq .restore (.seq (.tag true 0) (.seq (.tag true 1) .nil))))))))))))))

/-- jit.cpp 6568-6590, FXCH. -/
def emitXch (i : Nat) : Code :=
  .seq (.clr 0x200#16) (.check (faultFxch · i) (setCtx (.seq (.ldSt 0) (.seq (.ldSt i) (.seq (.stSt 0) (.seq (.stSt i) (.seq .restore .nil)))))))

/-- The code of an instruction. -/
def emit (i : Ins) : Code :=
  .check pending (match i with
    | .const k => emitConst k
    | .fldReg i => emitFldReg i
    | .fldMem f => emitFldMem f
    | .fstReg i p => emitFstReg i p
    | .fstMem f p => emitFstMem f p
    | .arith o form i => emitArith o form i
    | .arithMem o f => emitArithMem o f
    | .un u => emitUn u
    | .chs => emitChs
    | .comReg i p => emitComReg i p
    | .comMem f p => emitComMem f p
    | .patan => emitPatan
    | .sincos => emitSincos
    | .xch i => emitXch i)

/-- The control words: the guest's and those the host runs with. -/
structure Cws where
  fctrl : BitVec 16
  frp : BitVec 16
  mxcsr : BitVec 32
  shadow : BitVec 32

/-- What writes them.  `os` is CR4.OSFXSR. -/
inductive CwOp where
  | reset | fldcw (v : BitVec 16) | fninit | fxrstor (os : Bool) (v : BitVec 16) (m : BitVec 32) | simd (raised : BitVec 32)

/-- core/fpu.cpp 15-18 and translate.cpp 413-414 (reset), jit.cpp 6219-6224 (FLDCW), 6320-6328 (FNINIT), fpu_instructions.cpp 51-62
(FXRSTOR), jit.cpp 2518-2526 (the flags of an SSE instruction). -/
def Cws.step (c : Cws) : CwOp → Cws
  | .reset => ⟨0x40#16, 0x40#16 ||| 0x3F#16, 0x1F80#32, 0x1F80#32⟩
  | .fldcw v => { c with fctrl := v ||| 0x40#16, frp := (v ||| 0x40#16) ||| 0x3F#16 }
  | .fninit => { c with fctrl := 0x37F#16, frp := 0x37F#16 }
  | .fxrstor os v m =>
    if os ∧ m &&& ~~~0xFFBF#32 ≠ 0#32 then c
    else
      let c := if os then { c with mxcsr := m, shadow := (m ||| (0x3F#32 <<< 7)) &&& ~~~0x3F#32 } else c
      { c with fctrl := v ||| 0x40#16, frp := (v ||| 0x40#16) ||| 0x3F#16 }
  | .simd r => { c with mxcsr := (Sticky.simdPost c.mxcsr r).1 }

end Verif.EmitFpu
