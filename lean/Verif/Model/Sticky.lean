/-
Exception flags after floating point instructions: core/emitter/x64/jit.cpp 2512-2532
(gen_simd_exp_post_check) and 2535-2572 (gen_fpu_exp_post_check). Constants: core/internal.hpp
441-472, 501 (FPU_EXP_ALL = 0x3F, FPU_SW_CC_ALL = 0x4700, FPU_SW_ES = 0x80).

The host's flags after the instruction are an input: `cur`, the exceptions the instruction raised.
-/
namespace Verif.Sticky

/-- jit.cpp 2518-2530: guest MXCSR after the check and whether an exception is raised. -/
def simdPost (mxcsr cur : BitVec 32) : BitVec 32 × Bool :=
  let eax := cur &&& 0x3F#32
  let edx := ~~~(mxcsr >>> 7) &&& 0x3F#32
  ((mxcsr &&& ~~~0x3F#32) ||| eax, (edx &&& eax) != 0#32)

/-- jit.cpp 2541-2568: guest status word after the check and whether an unmasked exception among
`exc` is reported. `sw` is the host's status word (FNSTSW), with all exceptions cleared before the
instruction (jit.cpp 2578 FNCLEX). -/
def fpuPost (fctrl fstatus sw exc : BitVec 16) : BitVec 16 × Bool :=
  let edx := ~~~fctrl &&& sw
  let eax := sw &&& 0x473F#16
  let st := (fstatus &&& ~~~0x473F#16) ||| eax
  if edx &&& exc = 0#16 then (st, false) else (st ||| 0x80#16, true)

/-- A sequence of SSE instructions, none of which raises: their flags in order. -/
def simdRun (mxcsr : BitVec 32) (l : List (BitVec 32)) : BitVec 32 := l.foldl (fun m c => (simdPost m c).1) mxcsr

/-- A sequence of FPU instructions: host status words in order. -/
def fpuRun (fctrl fstatus exc : BitVec 16) (l : List (BitVec 16)) : BitVec 16 :=
  l.foldl (fun m c => (fpuPost fctrl m c exc).1) fstatus

end Verif.Sticky
