import Verif.Model.EmitStr
import Verif.Model.IoBitmap
/-
The code emitted for the port instructions: core/emitter/x64/jit.cpp 2101-2147 (load_io, store_io), 2148-2201 (gen_check_io_priv), 6888-6925 (IN),
6991-7056 (INS), 8982-9018 (OUT), 9033-9099 (OUTS), and the helpers they call: core/memory_management.cpp 872-886.

Simplifications: what the ports do is a function of the accesses made so far (Model/PortIo.lean has the dispatch to the registered handlers), and the
handlers do not change the guest's registers or memory; the reads of the TSS (LD_MEMs) are ordinary reads with the privileges of the running code, as
in Model/IoBitmap.lean.
-/
namespace Verif.Emit
open Host

/-- An access that reached the ports: size, port, value. -/
inductive Ev where
  | rd (z : Sz) (p : BitVec 16) (v : Nat)
  | wr (z : Sz) (p : BitVec 16) (v : Nat)
deriving DecidableEq, Repr

/-- The rest of what port instructions depend on: the cached base and limit of TR, what reading a port returns after the accesses so far, and
whether an enabled i/o breakpoint covers the access (core/breakpoint.cpp 85-93; the exception is raised before the access). -/
structure Dev where
  base : BitVec 32
  limit : BitVec 32
  inp : List Ev → Sz → BitVec 16 → Nat
  watch : Sz → BitVec 16 → Bool

/-- The instructions of port code: one of Model/Host.lean, or one of its own. -/
inductive X where
  | h (i : I)
  /-- LD_SEG_BASE, LD_SEG_LIMIT of TR -/
  | trBase (d : Reg)
  | trLim (d : Reg)
  /-- BR_ULT to the label after the next `n` instructions -/
  | jb (n : Nat)
  /-- LD_IO: io_read_helper, port in EDX (a port_t, 16 bits), value to AL, AX or EAX -/
  | ldIo (z : Sz)
  /-- ST_IO: io_write_helper, port in EDX, value in R8 -/
  | stIo (z : Sz)
  /-- RAISEin0_f(EXP_GP) -/
  | gp

/-- Why the code stops: page fault, #GP(0), #DB. -/
inductive Why where | pf | gp | db
deriving DecidableEq, Repr

/-- Outcome: the next state and the accesses so far, with the number of instructions to skip; an exception; an access to the guest's context while
RCX does not point to it. -/
inductive XOut where
  | next (k : Nat) (h : Host.St) (t : List Ev)
  | stop (w : Why) (g : G) (t : List Ev)
  | stuck

/-- One instruction. -/
def xstep (e : Env) (d : Dev) (h : Host.St) (t : List Ev) : X → XOut
  | .h i => match step e h i with
    | .next k h' => .next k h' t
    | .fault g => .stop .pf g t
    | .stuck => .stuck
  | .trBase r => if h.r .rcx = e.ctx then .next 0 (wr h .d r d.base) t else .stuck
  | .trLim r => if h.r .rcx = e.ctx then .next 0 (wr h .d r d.limit) t else .stuck
  | .jb n => .next (if h.cf then n else 0) h t
  | .ldIo z =>
    if h.r .rcx = e.ctx then
      let p : BitVec 16 := rd h .w .rdx
      if d.watch z p then .stop .db h.g t
      else
        let v := BitVec.ofNat z.bits (d.inp t z p)
        .next 0 (wr (clob e h) z .rax v) (t ++ [.rd z p v.toNat])
    else .stuck
  | .stIo z =>
    if h.r .rcx = e.ctx then
      let p : BitVec 16 := rd h .w .rdx
      if d.watch z p then .stop .db h.g t
      else .next 0 (clob e h) (t ++ [.wr z p (rd h z .r8).toNat])
    else .stuck
  | .gp => .stop .gp h.g t

/-- A sequence of instructions. -/
def xrun (e : Env) (d : Dev) : Nat → List X → Host.St → List Ev → XOut
  | k, [], h, t => .next k h t
  | k + 1, _ :: l, h, t => xrun e d k l h t
  | 0, i :: l, h, t => match xstep e d h t i with
    | .next k h' t' => xrun e d k l h' t'
    | .stop w g t' => .stop w g t'
    | .stuck => .stuck

/-- jit.cpp 2154-2165: the bitmap's offset is read, the port (in EDX unless it is the immediate `p`) saved before. -/
def ioMapCode (p : Option (BitVec 8)) : List I :=
  (match p with | none => [.stL .d 0 .rdx] | some _ => []) ++
  [.alu .add .d .r10 (.imm 102#64), .mov .d .rdx (.reg .r10), .ldMem .w, .movzx .w .rax .rax]
/-- jit.cpp 2166-2174: the offset of the port's byte in the TSS, plus one, compared with the limit. -/
def ioOffCode (p : Option (BitVec 8)) : List I :=
  (match p with
  | some v => [.alu .add .d .rax (.imm (BitVec.ofNat 64 (v.toNat / 8 + 1)))]
  | none => [.ldL .d .rdx 0, .sh .shr .d .rdx 3, .lea .rax .rax (some (.rdx, 0)) 1#32]) ++ [.cmp .d .rax (.reg .r11)]
/-- jit.cpp 2176-2179: two bytes of the bitmap. -/
def ioBitsCode : List I := [.alu .add .d .rax (.reg .r10), .mov .d .rdx (.reg .rax), .ldMem .w, .movzx .w .rax .rax]
/-- jit.cpp 2180-2190: the bits of the ports accessed. -/
def ioShiftCode (p : Option (BitVec 8)) (z : Sz) : List I :=
  (match p with
  | some v => [.shop (.sh .shr) .d .rax .rax (some (v.toNat % 8))]
  | none => [.ldL .d .rdx 0, .alu .and .d .rdx (.imm 7#64), .mov .d .rcx (.reg .rdx), .shop (.sh .shr) .d .rax .rax none, .reload]) ++
  [.alu .and .d .rax (.imm (BitVec.ofNat 64 (2 ^ z.bytes - 1)))]
/-- jit.cpp 2175-2196: from the second comparison on. -/
def ioTail (p : Option (BitVec 8)) (z : Sz) : List X :=
  .h (.ja ((ioBitsCode ++ ioShiftCode p z).length + 2)) :: ((ioBitsCode ++ ioShiftCode p z).map .h ++ [.h (.jne 1), .h (.jmp 1), .gp])
/-- jit.cpp 2159-2174: from the first comparison on. -/
def ioRest (p : Option (BitVec 8)) (z : Sz) : List X := (ioMapCode p ++ ioOffCode p).map .h ++ ioTail p z
/-- jit.cpp 2148-2201: gen_check_io_priv, when a check is needed. -/
def ioCheck (p : Option (BitVec 8)) (z : Sz) : List X :=
  [.trBase .r10, .trLim .r11, .h (.cmp .d .r11 (.imm 103#64)), .jb ((ioRest p z).length - 1)] ++ ioRest p z

/-- jit.cpp 2153: whether it is, with the privilege level, IOPL and mode the block is translated for. -/
def ioChecked (cpl iopl : Nat) (vm86 : Bool) : Bool := decide (iopl < cpl) || vm86

/-- EDX, the guest's. -/
def gDx : GReg := ⟨2, false⟩
/-- jit.cpp 6912-6915 and similar: the port is DX; the check leaves it in a local variable. -/
def ioDx (chk : Bool) (z : Sz) : List X :=
  .h (.ldGx false .d .w .rdx gDx) :: if chk then ioCheck none z ++ [.h (.ldL .d .rdx 0)] else []

/-- IN (`true`) or OUT as decoded: size, the immediate port (otherwise DX), whether the check is emitted. -/
structure IoInsn where
  inp : Bool
  z : Sz
  port : Option (BitVec 8)
  chk : Bool

/-- jit.cpp 6888-6925, 8982-9018: IN and OUT. -/
def ioCode (x : IoInsn) : List X :=
  (match x.port with
  | some p => (if x.chk then ioCheck (some p) x.z else []) ++ [.h (.mov .d .rdx (.imm (p.setWidth 64)))]
  | none => ioDx x.chk x.z) ++
  if x.inp then [.ldIo x.z, .h (.stG x.z acc .rax)] else [.h (.ldG x.z .r8 acc), .stIo x.z]

/-- INS (`true`) or OUTS as decoded: as StrInsn; REP and REPNZ both repeat. -/
structure IoStr where
  inp : Bool
  z : Sz
  a32 : Bool
  seg : Fin 6
  srcFlat : Bool
  dstFlat : Bool
  rep : Bool
  chk : Bool

/-- INS moves EDI as STOS does, OUTS moves ESI as LODS does (jit.cpp 7022-7053, 9065-9096 are 10519-10550, 7731-7765). -/
def IoStr.like (x : IoStr) : StrInsn :=
  ⟨if x.inp then .stos else .lods, x.z, x.a32, x.seg, x.srcFlat, x.dstFlat, if x.rep then some .rep else none⟩

/-- jit.cpp 7008-7020: what was read is stored. -/
def insStore (x : IoStr) : List I :=
  [.mov x.z .r8 (.reg .rax), ldIdx x.a32 .rdx edi, .mov .d .rbx (.reg .rdx)] ++ addBase x.dstFlat 0 ++ [.stMem x.z]
/-- jit.cpp 7001-7020: the element of INS. -/
def insElem (x : IoStr) : List X := ioDx x.chk x.z ++ (.ldIo x.z :: (insStore x).map .h)
/-- jit.cpp 9043-9056: what is to be written is loaded. -/
def outsLoad (x : IoStr) : List I :=
  [ldIdx x.a32 .rdx esi, .mov .d .rbx (.reg .rdx)] ++ addBase x.srcFlat x.seg ++ [.ldMem x.z, .stL x.z 1 .rax]
/-- jit.cpp 9043-9063: the element of OUTS. -/
def outsElem (x : IoStr) : List X := (outsLoad x).map .h ++ (ioDx x.chk x.z ++ [.h (.ldL x.z .r8 1), .stIo x.z])

/-- jit.cpp 7022-7055, 9065-9098: the index and the count. -/
def ioMove (x : StrInsn) : List I :=
  [.ldEfl .rax, .alu .and .d .rax (.imm 0x400#64), .test .d .rax .rax, .jne (fwd x).length] ++ (fwd x ++ bwd x)

/-- From `start` to `end`. -/
def ioTurn (x : IoStr) : List X := (if x.inp then insElem x else outsElem x) ++ (ioMove x.like).map .h

/-- The code from `start` on, entered at most `n` times. -/
def xagain (e : Env) (d : Dev) (l : List X) : Nat → Host.St → List Ev → XOut
  | 0, _, _ => .stuck
  | n + 1, h, t => match xrun e d 0 l h t with
    | .next 0 h' t' => .next 0 h' t'
    | .next (_ + 1) h' t' => xagain e d l n h' t'
    | .stop w g t' => .stop w g t'
    | .stuck => .stuck

/-- jit.cpp 6991-7056, 9033-9099: the code of INS or OUTS running. -/
def ioStrExec (e : Env) (d : Dev) (x : IoStr) (n : Nat) (h : Host.St) (t : List Ev) : XOut :=
  match run e 0 (repStart x.like) h with
  | .next 0 h' => xagain e d (ioTurn x) n h' t
  | .next (_ + 1) h' => .next 0 h' t
  | .fault g => .stop .pf g t
  | .stuck => .stuck

end Verif.Emit
