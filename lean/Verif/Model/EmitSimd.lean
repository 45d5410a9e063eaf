import Verif.Model.Host
/-
The code emitted for the SSE and MMX instructions the translator implements: core/emitter/x64/jit.cpp 1844-1857, 1979-1989 (LD_MEMs(SIZE128), ST_MEMs(SIZE128)),
2495-2532 (gen_simd_mem_align_check, gen_set_host_simd_ctx, gen_simd_exp_post_check), 2692-2705 (gen_check_fpu_unmasked_exp), 2753-2828 (gen_fpu2mmx_transition,
simd_arithmetic), 5585-5614 (CVTTSS2SI), 5890-5908 (EMMS), 8229-8481 (MOVAPS, MOVLPS, MOVHPS, MOVNTPS, MOVNTQ, MOVQ), 8578-8631 (MOVSS), 8656-8660 (MOVUPS),
10354-10381 (SHUFPS), 10709-10767 (UNPCKHPS, UNPCKLPS), 11014-11042 (XORPS).

Simplifications: the code is that of an instruction that is available (C88 is about the others) with CR0.NE set (otherwise the translator aborts, 2702); the results of
floating point operations on a lane are an input, with the flags they raise; the guest's memory is as in Model/Host.lean, a transfer of 16 bytes being one access of
Guest.load and Guest.store (Model/CrossPage.lean is about accesses that cross a page); VZEROUPPER does not change the registers used.
-/
namespace Verif.Simd
open Host

/-- The guest's state of SSE, MMX and x87: cpu_ctx.regs.xmm, fr (mantissa and upper 16 bits), ftags, the shadow of the top of the stack, fstatus, mxcsr and its
shadow (rounding and flush to zero as set, all exceptions masked, no flag set). -/
structure V where
  xmm : Fin 8 → BitVec 128
  lo : Fin 8 → BitVec 64
  hi : Fin 8 → BitVec 16
  tag : Fin 8 → BitVec 8
  top : BitVec 16
  fsw : BitVec 16
  mxcsr : BitVec 32
  shadow : BitVec 32

/-- The host's state: that of Model/Host.lean, XMM0 to XMM2, MXCSR, and the guest's. -/
structure S where
  h : Host.St
  x : Fin 3 → BitVec 128
  mx : BitVec 32
  v : V

/-- The floating point operations. -/
inductive Ar where | mul | add | rcp | rsqrt | sub
deriving DecidableEq

/-- What the environment decides: that of Model/Host.lean; where the guest's XMM registers and the local variables are; what XMM registers hold after a call; the result of
a floating point operation on a lane under a value of MXCSR, and the flags it raises; that of the conversion to an integer. -/
structure VEnv where
  e : Env
  xa : BitVec 64
  fr : BitVec 64
  hx : S → Fin 3 → BitVec 128
  fp : Ar → BitVec 32 → BitVec 32 → BitVec 32 → BitVec 32 × BitVec 6
  cvt : BitVec 32 → BitVec 32 → BitVec 32 × BitVec 6

/-- Why the code stops. -/
inductive Why where | pf | gp | mf | xf | ud
deriving DecidableEq, Repr

/-- The part of a register from bit 32 i on. -/
def l32 (v : BitVec 128) (i : Nat) : BitVec 32 := (v >>> (32 * i)).setWidth 32

/-- XORPS, SHUFPS, UNPCKHPS (`true`), UNPCKLPS. -/
inductive XOp where
  | xor
  | shuf (imm : BitVec 8)
  | unpck (high : Bool)

/-- Their results. -/
def XOp.eval (a b : BitVec 128) : XOp → BitVec 128
  | .xor => a ^^^ b
  | .shuf i => l32 b ((i >>> 6).toNat % 4) ++ l32 b ((i >>> 4).toNat % 4) ++ l32 a ((i >>> 2).toNat % 4) ++ l32 a (i.toNat % 4)
  | .unpck true => l32 b 3 ++ l32 a 3 ++ l32 b 2 ++ l32 a 2
  | .unpck false => l32 b 1 ++ l32 a 1 ++ l32 b 0 ++ l32 a 0

/-- MULPS and the like (`packed`), MULSS and the like: the result and the flags. -/
def arith (f : BitVec 32 → BitVec 32 → BitVec 32 × BitVec 6) (packed : Bool) (a b : BitVec 128) : BitVec 128 × BitVec 6 :=
  let r := fun i => f (l32 a i) (l32 b i)
  if packed then ((r 3).1 ++ (r 2).1 ++ (r 1).1 ++ (r 0).1, (r 3).2 ||| (r 2).2 ||| (r 1).2 ||| (r 0).2)
  else (l32 a 3 ++ l32 a 2 ++ l32 a 1 ++ (r 0).1, (r 0).2)

/-- The instructions: one of Model/Host.lean, or one of its own. -/
inductive I where
  | h (i : Host.I)
  /-- MOVAPS of a guest register -/
  | ldX (r : Fin 3) (i : Fin 8)
  | stX (i : Fin 8) (r : Fin 3)
  /-- MOVAPS r, [RAX] -/
  | ldA (r : Fin 3)
  /-- XORPS and the like: with a register, a guest register, [RAX] -/
  | op (o : XOp) (d s : Fin 3)
  | opG (o : XOp) (d : Fin 3) (i : Fin 8)
  | opA (o : XOp) (d : Fin 3)
  /-- MULPS and the like -/
  | arith (o : Ar) (packed : Bool) (d s : Fin 3)
  /-- CVTTSS2SI EBX, r -/
  | cvtt (r : Fin 3)
  /-- MOVSS d, s; MOVSS d, [local] -/
  | movss (d s : Fin 3)
  | movssL (d : Fin 3) (l : Nat)
  /-- MOVD r, EAX -/
  | movd (r : Fin 3)
  /-- LEA d, [RSP + local 0] -/
  | leaL (d : Reg)
  /-- LEA d, [RCX + guest register] -/
  | leaX (d : Reg) (i : Fin 8)
  /-- CALL_F(mem_read_jit_helper<uint128_t>): RCX is where the value goes, RDX cpu_ctx, R8 the address; it returns RCX -/
  | rd128
  /-- CALL_F(mem_write_jit_helper<uint128_t>): RCX is cpu_ctx, RDX the address, R8 where the value is -/
  | wr128
  /-- MOV d, [b] or [b + 8]; MOV [b] or [b + 8], s, where b points to a guest register -/
  | ldQ (d b : Reg) (high : Bool)
  | stQ (b : Reg) (high : Bool) (s : Reg)
  /-- MOV of the low 32 bits of a guest XMM register -/
  | ldXd (d : Reg) (i : Fin 8)
  | stXd (i : Fin 8) (s : Reg)
  /-- MOV of a guest MMX register; the upper bits set to ones -/
  | ldMM (d : Reg) (i : Fin 8)
  | stMM (i : Fin 8) (s : Reg)
  | stOnes (i : Fin 8)
  /-- MOV QWORD [CPU_CTX_FTAGS0], FPU_TAG_VALID (0); MOV BYTE [CPU_CTX_FTAGSi], FPU_TAG_EMPTY (3); ST_R16(FPU_DATA_FTOP, 0) -/
  | tags
  | tagE (i : Fin 8)
  | top
  /-- TEST [CPU_CTX_FSTATUS], FPU_SW_ES -/
  | testEs
  /-- STMXCSR [local]; LDMXCSR [local]; LDMXCSR [SIMD_SHDW_MXCSR] -/
  | stMx (l : Nat)
  | ldMx (l : Nat)
  | ldMxS
  /-- MOV d, [CPU_CTX_MXCSR]; AND with ~MXCSR_EXP_ALL; OR with s -/
  | ldMxG (d : Reg)
  | andMx
  | orMx (s : Reg)
  /-- RAISEin0_f -/
  | raise (w : Why)

inductive Out where
  | next (k : Nat) (s : S)
  | stop (w : Why) (g : G) (v : V) (mx : BitVec 32)
  | stuck

/-- The guest XMM register at an address of the host. -/
def VEnv.at (w : VEnv) (p : BitVec 64) : Option (Fin 8) := [0, 1, 2, 3, 4, 5, 6, 7].find? fun i => p == w.e.ctx + w.xa + BitVec.ofNat 64 (16 * i.val)

/-- Set a register. -/
def setN {n : Nat} {α : Type} (f : Fin n → α) (i : Fin n) (a : α) : Fin n → α := fun j => if j = i then a else f j

/-- Set one of the host's XMM registers; one of the guest's. -/
def S.setX (s : S) (r : Fin 3) (v : BitVec 128) : S := { s with x := setN s.x r v }
def S.setG (s : S) (i : Fin 8) (v : BitVec 128) : S := { s with v := { s.v with xmm := setN s.v.xmm i v } }
def S.setH (s : S) (h : Host.St) : S := { s with h := h }
def S.setV (s : S) (v : V) : S := { s with v := v }
def S.setMx (s : S) (m : BitVec 32) : S := { s with mx := m }

/-- MOVSS between registers: the low lane. -/
def lowLane (d : BitVec 128) (v : BitVec 32) : BitVec 128 := (d >>> 32 <<< 32) ||| v.setWidth 128
/-- Half of a register. -/
def half (v : BitVec 128) (high : Bool) : BitVec 64 := if high then (v >>> 64).setWidth 64 else v.setWidth 64
def setHalf (v : BitVec 128) (high : Bool) (q : BitVec 64) : BitVec 128 := if high then q ++ v.setWidth 64 else (v >>> 64).setWidth 64 ++ q

/-- The calls: they may change the XMM registers of the host. -/
def isCall : Host.I → Bool
  | .ldMem _ => true
  | .stMem _ => true
  | .callDiv .. => true
  | _ => false

/-- 16 bytes at an address of the host: in the local variables. -/
def VEnv.locAt (w : VEnv) (s : S) (p : BitVec 64) : Option (BitVec 128) := if p = w.fr then some (s.h.loc 1 ++ s.h.loc 0) else none

def ctxd (w : VEnv) (s : S) (o : Out) : Out := if s.h.r .rcx = w.e.ctx then o else .stuck

/-- One instruction. -/
def step (w : VEnv) (s : S) : I → Out
  | .h i => match Host.step w.e s.h i with
    | .next k h' => .next k { s with h := h', x := if isCall i then w.hx s else s.x }
    | .fault g => .stop .pf g s.v s.mx
    | .stuck => .stuck
  | .ldX r i => ctxd w s (.next 0 (s.setX r (s.v.xmm i)))
  | .stX i r => ctxd w s (.next 0 (s.setG i (s.x r)))
  | .ldA r => match w.locAt s (s.h.r .rax) with
    | some v => .next 0 (s.setX r v)
    | none => .stuck
  | .op o d r => .next 0 (s.setX d (o.eval (s.x d) (s.x r)))
  | .opG o d i => ctxd w s (.next 0 (s.setX d (o.eval (s.x d) (s.v.xmm i))))
  | .opA o d => match w.locAt s (s.h.r .rax) with
    | some v => .next 0 (s.setX d (o.eval (s.x d) v))
    | none => .stuck
  | .arith o p d r =>
    let q := Simd.arith (fun a b => w.fp o a b s.mx) p (s.x d) (s.x r)
    .next 0 ((s.setX d q.1).setMx (s.mx ||| q.2.setWidth 32))
  | .cvtt r =>
    let q := w.cvt (l32 (s.x r) 0) s.mx
    .next 0 ((s.setH (wr s.h .d .rbx q.1)).setMx (s.mx ||| q.2.setWidth 32))
  | .movss d r => .next 0 (s.setX d (lowLane (s.x d) (l32 (s.x r) 0)))
  | .movssL d l => .next 0 (s.setX d ((s.h.loc l).setWidth 32 |>.setWidth 128))
  | .movd r => .next 0 (s.setX r ((rd s.h .d .rax : BitVec 32).setWidth 128))
  | .leaL d => .next 0 (s.setH (s.h.set d w.fr))
  | .leaX d i => .next 0 (s.setH (s.h.set d (s.h.r .rcx + w.xa + BitVec.ofNat 64 (16 * i.val))))
  | .rd128 =>
    let a : BitVec 32 := rd s.h .d .r8
    if s.h.r .rdx = w.e.ctx ∧ s.h.r .rcx = w.fr then
      if w.e.ok a 16 false then
        let v := BitVec.ofNat 128 (Guest.load s.h.g.mem a 16)
        let h := (clob w.e s.h).set .rax w.fr
        .next 0 { s with h := { h with loc := fun j => if j = 0 then half v false else if j = 1 then half v true else s.h.loc j }, x := w.hx s }
      else .stop .pf s.h.g s.v s.mx
    else .stuck
  | .wr128 => ctxd w s (
    let a : BitVec 32 := rd s.h .d .rdx
    match w.at (s.h.r .r8) with
    | some i =>
      if w.e.ok a 16 true then
        .next 0 { s with h := (clob w.e s.h).setG { s.h.g with mem := Guest.store s.h.g.mem a 16 (s.v.xmm i).toNat }, x := w.hx s }
      else .stop .pf s.h.g s.v s.mx
    | none => .stuck)
  | .ldQ d b high => match w.at (s.h.r b) with
    | some i => .next 0 (s.setH (s.h.set d (half (s.v.xmm i) high)))
    | none => .stuck
  | .stQ b high r => match w.at (s.h.r b) with
    | some i => .next 0 (s.setG i (setHalf (s.v.xmm i) high (s.h.r r)))
    | none => .stuck
  | .ldXd d i => ctxd w s (.next 0 (s.setH (wr s.h .d d (l32 (s.v.xmm i) 0))))
  | .stXd i r => ctxd w s (.next 0 (s.setG i (lowLane (s.v.xmm i) (rd s.h .d r))))
  | .ldMM d i => ctxd w s (.next 0 (s.setH (s.h.set d (s.v.lo i))))
  | .stMM i r => ctxd w s (.next 0 (s.setV { s.v with lo := setN s.v.lo i (s.h.r r) }))
  | .stOnes i => ctxd w s (.next 0 (s.setV { s.v with hi := setN s.v.hi i 0xFFFF#16 }))
  | .tags => ctxd w s (.next 0 (s.setV { s.v with tag := fun _ => 0#8 }))
  | .tagE i => ctxd w s (.next 0 (s.setV { s.v with tag := setN s.v.tag i 3#8 }))
  | .top => ctxd w s (.next 0 (s.setV { s.v with top := 0#16 }))
  | .testEs => ctxd w s (.next 0 (s.setH (s.h.setF (s.v.fsw &&& 0x80#16 == 0) (w.e.hf s.h .cf) (w.e.hf s.h .of) (w.e.hf s.h .sf))))
  | .stMx l => .next 0 (s.setH (wrL s.h .d l s.mx))
  | .ldMx l => .next 0 (s.setMx (rdL s.h .d l))
  | .ldMxS => ctxd w s (.next 0 (s.setMx s.v.shadow))
  | .ldMxG d => ctxd w s (.next 0 (s.setH (wr s.h .d d s.v.mxcsr)))
  | .andMx => ctxd w s (.next 0 (s.setV { s.v with mxcsr := s.v.mxcsr &&& 0xFFFFFFC0#32 }))
  | .orMx r => ctxd w s (.next 0 (s.setV { s.v with mxcsr := s.v.mxcsr ||| rd s.h .d r }))
  | .raise y => .stop y s.h.g s.v s.mx

/-- A sequence of instructions. -/
def run (w : VEnv) : Nat → List I → S → Out
  | k, [], s => .next k s
  | k + 1, _ :: l, s => run w k l s
  | 0, i :: l, s => match step w s i with
    | .next k s' => run w k l s'
    | o => o

/-- A register or memory operand. -/
inductive Rm where
  | reg (i : Fin 8)
  | mem (a : Ea)

/-- jit.cpp 2495-2503. -/
def alignCode : List I := [.h (.testI .d .rdx 15#64), .h (.jeq 1), .raise .gp]
/-- jit.cpp 1852-1857. -/
def ld128 (w : VEnv) : List I := [.leaL .rcx, .h (.mov .d .r8 (.reg .rdx)), .h (.mov .q .rdx (.imm w.e.ctx)), .rd128]
/-- A memory operand of 16 bytes, its address checked or not; RAX points to the value. -/
def mem128 (w : VEnv) (al : Bool) (a : Ea) : List I := .h (.ea a) :: ((if al then alignCode else []) ++ ld128 w)

/-- jit.cpp 8240-8256: MOVAPS (`al`), MOVUPS to a register. -/
def movapsLd (w : VEnv) (al : Bool) (dst : Fin 8) : Rm → List I
  | .reg r => [.ldX 0 r, .stX dst 0]
  | .mem a => mem128 w al a ++ [.ldA 0, .stX dst 0]
/-- jit.cpp 8260-8277: MOVAPS, MOVUPS, and 8379-8402 MOVNTPS to memory or a register. -/
def movapsSt (al : Bool) (src : Fin 8) : Rm → List I
  | .reg r => [.ldX 0 src, .stX r 0]
  | .mem a => .h (.ea a) :: ((if al then alignCode else []) ++ [.leaX .r8 src, .wr128])
/-- jit.cpp 8298-8312, 8343-8357: MOVLPS, MOVHPS from memory. -/
def movhLd (high : Bool) (dst : Fin 8) (a : Ea) : List I := [.h (.ea a), .h (.ldMem .q), .leaX .rdx dst, .stQ .rdx high .rax]
/-- jit.cpp 8314-8327, 8359-8372: MOVLPS, MOVHPS to memory. -/
def movhSt (high : Bool) (src : Fin 8) (a : Ea) : List I := [.h (.ea a), .leaX .rbx src, .ldQ .r8 .rbx high, .h (.stMem .q)]
/-- jit.cpp 8589-8611: MOVSS to a register. -/
def movssLd (dst : Fin 8) (rm : Rm) : List I :=
  .ldX 0 dst :: ((match rm with
  | .reg r => [.ldX 1 r, .movss 0 1]
  | .mem a => [.h (.ea a), .h (.ldMem .d), .h (.stL .d 0 .rax), .movssL 0 0]) ++ [.stX dst 0])
/-- jit.cpp 8613-8628: MOVSS from a register. -/
def movssSt (src : Fin 8) : Rm → List I
  | .reg r => [.ldXd .rax src, .stXd r .rax]
  | .mem a => [.h (.ea a), .ldXd .r8 src, .h (.stMem .d)]
/-- jit.cpp 11024-11041: XORPS. -/
def xorCode (w : VEnv) (dst : Fin 8) : Rm → List I
  | .reg r => [.ldX 0 dst, .opG .xor 0 r, .stX dst 0]
  | .mem a => mem128 w true a ++ [.ldX 0 dst, .opA .xor 0, .stX dst 0]
/-- jit.cpp 10363-10380: SHUFPS. -/
def shufCode (w : VEnv) (imm : BitVec 8) (dst : Fin 8) (rm : Rm) : List I :=
  (match rm with | .reg r => [.ldX 1 r] | .mem a => mem128 w true a ++ [.ldA 1]) ++ [.ldX 0 dst, .op (.shuf imm) 0 1, .stX dst 0]
/-- jit.cpp 10716-10735, 10745-10764: UNPCKHPS, UNPCKLPS. -/
def unpckCode (w : VEnv) (high : Bool) (dst : Fin 8) (rm : Rm) : List I :=
  (match rm with
  | .reg r => [.ldX 1 dst, .ldX 2 r, .op (.unpck high) 1 2]
  | .mem a => mem128 w true a ++ [.ldX 1 dst, .opA (.unpck high) 1]) ++ [.stX dst 1]

/-- jit.cpp 2505-2510. -/
def setCtx : List I := [.stMx 5, .ldMxS]
/-- jit.cpp 2512-2532; `osx` is CR4.OSXMMEXCPT. -/
def postCode (osx : Bool) : List I :=
  [.stMx 4, .ldMxG .rdx, .h (.ldL .d .rax 4), .andMx, .h (.sh .shr .d .rdx 7), .h (.alu .and .d .rax (.imm 0x3F#64)), .h (.not .d .rdx), .orMx .rax,
    .h (.alu .and .d .rdx (.imm 0x3F#64)), .h (.test .d .rdx .rax), .h (.jeq 2), .ldMx 5, .raise (if osx then .xf else .ud)]
/-- jit.cpp 2769: the operations whose exceptions are looked at. -/
def Ar.checked : Ar → Bool
  | .mul => true
  | .add => true
  | _ => false
/-- jit.cpp 2772-2788: the second operand in XMM1. -/
def arSrc (w : VEnv) (packed : Bool) : Rm → List I
  | .reg r => [.ldX 1 r]
  | .mem a => if packed then mem128 w false a ++ [.ldA 1] else [.h (.ea a), .h (.ldMem .d), .movd 1]
/-- jit.cpp 2758-2828: simd_arithmetic. -/
def arCode (w : VEnv) (o : Ar) (packed osx : Bool) (dst : Fin 8) (rm : Rm) : List I :=
  arSrc w packed rm ++ (.ldX 0 dst :: (if o.checked then setCtx ++ (.arith o packed 0 1 :: (postCode osx ++ [.stX dst 0, .ldMx 5])) else [.arith o packed 0 1, .stX dst 0]))
/-- jit.cpp 5585-5614: CVTTSS2SI. -/
def cvtCode (osx : Bool) (dst : GReg) (rm : Rm) : List I :=
  (match rm with | .reg r => [.ldX 0 r] | .mem a => [.h (.ea a), .h (.ldMem .d), .movd 0]) ++
  (setCtx ++ (.cvtt 0 :: (postCode osx ++ [.h (.stG .d dst .rbx), .ldMx 5])))

/-- jit.cpp 2692-2705, with CR0.NE set. -/
def mfCode : List I := [.testEs, .h (.jeq 1), .raise .mf]
/-- jit.cpp 2753-2757. -/
def toMmx : List I := [.tags, .top]
/-- jit.cpp 8444-8459: MOVQ to an MMX register. -/
def movqLd (dst : Fin 8) (rm : Rm) : List I :=
  mfCode ++ ((match rm with | .reg r => [.ldMM .rax r] | .mem a => [.h (.ea a), .h (.ldMem .q)]) ++ (.stMM dst .rax :: .stOnes dst :: toMmx))
/-- jit.cpp 8461-8477: MOVQ, and 8406-8429 MOVNTQ, from an MMX register. -/
def movqSt (src : Fin 8) (rm : Rm) : List I :=
  mfCode ++ (.ldMM .r8 src :: ((match rm with | .reg r => [.stMM r .r8, .stOnes r] | .mem a => [.h (.ea a), .h (.stMem .q)]) ++ toMmx))
/-- jit.cpp 5890-5908: EMMS. -/
def emmsCode : List I := mfCode ++ [.tagE 0, .tagE 1, .tagE 2, .tagE 3, .tagE 4, .tagE 5, .tagE 6, .tagE 7, .top]

end Verif.Simd
