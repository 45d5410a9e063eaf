import Verif.Model.GuestMem
import Verif.Model.Flags
/-
String instructions and the REP prefixes: core/emitter/x64/jit.cpp 2204-2246 (rep_start, rep),
5352-5460 (CMPS), 7694-7765 (LODS), 8483-8577 (MOVS), 10034-10121 (SCAS), 10460-10550 (STOS).

Simplification: the zero-base shortcut of the segment addressing is folded into the base (C64 shows
that it changes nothing), and the restart of a faulting instruction is a second execution from the
registers the first one left.
-/
namespace Verif.StringOps
open Guest

/-- The part of the guest state a string instruction uses. `src` and `dst` are the bases of the
source segment (DS or the prefix) and of ES. -/
structure St where
  mem : Mem
  esi : BitVec 32
  edi : BitVec 32
  ecx : BitVec 32
  eax : BitVec 32
  df : Bool
  src : BitVec 32
  dst : BitVec 32
  fl : Flags.St

/-- The five instructions. -/
inductive Instr where | movs | stos | lods | cmps | scas
deriving DecidableEq, Repr

/-- Encoding of one instruction: which, element size in bytes (1, 2, 4), 32 bit addressing. -/
structure Enc where
  i : Instr
  k : Nat
  a32 : Bool

/-- MOVZX from the 16 bit register or LD_R32 (jit.cpp 8505-8510 and similar). -/
def rdIdx (a32 : Bool) (r : BitVec 32) : BitVec 32 := if a32 then r else r &&& 0xFFFF#32

/-- ST_R16 or ST_R32 (jit.cpp 8544-8551 and similar). -/
def wrIdx (a32 : Bool) (r v : BitVec 32) : BitVec 32 :=
  if a32 then v else (r &&& 0xFFFF0000#32) ||| (v &&& 0xFFFF#32)

/-- ADD or SUB of the element size, by DF (jit.cpp 8535-8570 and similar). -/
def stepIdx (e : Enc) (df : Bool) (r : BitVec 32) : BitVec 32 :=
  wrIdx e.a32 r (if df then rdIdx e.a32 r - BitVec.ofNat 32 e.k else rdIdx e.a32 r + BitVec.ofNat 32 e.k)

/-- ST_REG_val of AL, AX or EAX (jit.cpp 7725). -/
def setAcc (k : Nat) (eax : BitVec 32) (v : Nat) : BitVec 32 :=
  if k = 4 then BitVec.ofNat 32 v
  else if k = 2 then (eax &&& 0xFFFF0000#32) ||| (BitVec.ofNat 32 v &&& 0xFFFF#32)
  else (eax &&& 0xFFFFFF00#32) ||| (BitVec.ofNat 32 v &&& 0xFF#32)

/-- One element; `none` is a page fault, which leaves every register as it was. -/
def elem (ok : Ok) (e : Enc) (s : St) : Option St :=
  let a := rdIdx e.a32 s.esi + s.src
  let b := rdIdx e.a32 s.edi + s.dst
  match e.i with
  | .movs =>
    if ok a e.k false && ok b e.k true then
      some { s with mem := store s.mem b e.k (load s.mem a e.k),
                    esi := stepIdx e s.df s.esi, edi := stepIdx e s.df s.edi }
    else none
  | .stos =>
    if ok b e.k true then
      some { s with mem := store s.mem b e.k s.eax.toNat, edi := stepIdx e s.df s.edi }
    else none
  | .lods =>
    if ok a e.k false then
      some { s with eax := setAcc e.k s.eax (load s.mem a e.k), esi := stepIdx e s.df s.esi }
    else none
  | .cmps =>
    if ok b e.k false && ok a e.k false then
      some { s with
        fl := (Flags.subOp s.fl (BitVec.ofNat (8 * e.k) (load s.mem a e.k))
                (BitVec.ofNat (8 * e.k) (load s.mem b e.k))).2
        esi := stepIdx e s.df s.esi, edi := stepIdx e s.df s.edi }
    else none
  | .scas =>
    if ok b e.k false then
      some { s with
        fl := (Flags.subOp s.fl (BitVec.ofNat (8 * e.k) s.eax.toNat)
                (BitVec.ofNat (8 * e.k) (load s.mem b e.k))).2
        edi := stepIdx e s.df s.edi }
    else none

/-- The prefix: REP (MOVS, STOS, LODS), REPZ and REPNZ (CMPS, SCAS). -/
inductive Rep where | rep | repz | repnz
deriving DecidableEq, Repr

/-- jit.cpp 2236-2245: after an element, whether the ZF test lets the loop go on. -/
def goOn (r : Rep) (s : St) : Bool :=
  match r with
  | .rep => true
  | .repz => Flags.ldZf s.fl == 0#32
  | .repnz => Flags.ldZf s.fl != 0#32

/-- The count register (CX or ECX). -/
def count (e : Enc) (s : St) : Nat := (rdIdx e.a32 s.ecx).toNat

/-- jit.cpp 2225-2233: SUB 1 and store of CX or ECX. -/
def decCount (e : Enc) (s : St) : St := { s with ecx := wrIdx e.a32 s.ecx (rdIdx e.a32 s.ecx - 1#32) }

/-- Outcome of the instruction: completed, or page fault with the state at the faulting element. -/
inductive Out where
  | done (s : St)
  | fault (s : St)

/-- jit.cpp 2204-2246 and the loop formed with the instruction's body: at most `n` elements where `n`
is the value of the count register (rep_start leaves at once when it is zero; `rep` decrements it and
leaves when it becomes zero). The fuel is the count itself, so it never runs out before the count. -/
def loop (ok : Ok) (e : Enc) (r : Rep) : Nat → St → Out
  | 0, s => .done s
  | n + 1, s =>
    match elem ok e s with
    | none => .fault s
    | some s1 =>
      let s2 := decCount e s1
      if count e s2 = 0 then .done s2
      else if goOn r s2 then loop ok e r n s2 else .done s2

/-- A REP prefixed string instruction. -/
def repInstr (ok : Ok) (e : Enc) (r : Rep) (s : St) : Out := loop ok e r (count e s) s

end Verif.StringOps
