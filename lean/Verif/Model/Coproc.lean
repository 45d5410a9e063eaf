import Verif.Model.Priv
import Verif.Model.Tc
/-
The checks in front of x87, MMX and SSE instructions (core/emitter/x64/jit.cpp), and a machine with a coprocessor state of which only
these instructions know.  Numeric results are not modelled here: an instruction that is let through changes the coprocessor state in an
arbitrary way.
-/
namespace Verif.Coproc
open Seg Priv

/-- The classes of instructions with the same check. -/
inductive Cop where
  /-- jit.cpp 3809, 3860, 3968, 4062, 6036, 6106, 6206, 6297, 6308, 6335, 6355, 6379, 6412, 6446, 6487, 6571, 6596, 6620: every x87
  instruction but FWAIT, and FXSAVE, FXRSTOR -/
  | x87
  /-- jit.cpp 6560 -/
  | fwait
  /-- jit.cpp 5893 -/
  | emms
  /-- jit.cpp 8408, 8434: MOVQ, MOVNTQ -/
  | mmx
  /-- jit.cpp 2765, 5588, 8232, 8291, 8336, 8381, 8581, 10357, 10712, 10741, 11017: SSE moves, shuffles, arithmetic, conversions -/
  | sse
deriving DecidableEq

/-- HFLG_CR0_EM is bit 5, HFLG_CR0_TS bit 10. -/
def EM : BitVec 32 := 0x20#32
def TS : BitVec 32 := 0x400#32
/-- HFLG_CR0_MP is bit 15, HFLG_CR4_OSFXSR bit 9, HFLG_CR4_OSXMMEXCPT bit 11. -/
def MP : BitVec 32 := 0x8000#32
def OSFXSR : BitVec 32 := 0x200#32
def OSXMM : BitVec 32 := 0x800#32

/-- The exception raised instead of the instruction (EXP_NM is 7, EXP_UD 6), as in the lines cited at `Cop`. -/
def gate (h : BitVec 32) : Cop → Option Nat
  | .x87 => if h &&& (EM ||| TS) ≠ 0#32 then some 7 else none
  | .fwait => if h &&& (MP ||| TS) = (MP ||| TS) then some 7 else none
  | .emms => if h &&& (EM ||| TS) ≠ 0#32 then some (if h &&& TS ≠ 0#32 then 7 else 6) else none
  | .mmx => if h &&& (TS ||| EM) ≠ 0#32 then some (if h &&& (TS ||| EM) = TS then 7 else 6) else none
  | .sse => if h &&& (TS ||| OSFXSR ||| EM) ≠ OSFXSR then some (if h &&& TS ≠ 0#32 then 7 else 6) else none

/-- jit.cpp 2531: the exception of an unmasked SIMD floating-point condition (EXP_XF is 19). -/
def simdExc (h : BitVec 32) : Nat := if h &&& OSXMM ≠ 0#32 then 19 else 6

/-- Instructions: those of Model/Priv, and coprocessor instructions that change the coprocessor state by `f` and the rest like some
other instruction does (results in memory or AX, EIP).  FWAIT leaves the coprocessor state as it is. -/
inductive Instr (X : Type) where
  | base (i : Priv.Instr)
  | cop (c : Cop) (f : X → X) (g : (Fin 8 → BitVec 32) → Fin 8 → BitVec 32) (arith : BitVec 32) (df : Bool) (esp eip : BitVec 32)
      (m : Guest.Mem → Guest.Mem)

/-- One instruction on the pair of processor and coprocessor state: completed with the new pair, or not. -/
def step {X : Type} (acc : Acc) (i : Instr X) (s : Priv.St) (x : X) : Option (Priv.St × X) :=
  match i with
  | .base i => match Priv.step acc i s with
    | .done t => some (t, x)
    | _ => none
  | .cop c f g a d sp ip m =>
    match gate s.c.r.hflags c with
    | some _ => none
    | none => match Priv.step acc (.plain g a d sp ip m) s with
      | .done t => some (t, if c = .fwait then x else f x)
      | _ => none

end Verif.Coproc
