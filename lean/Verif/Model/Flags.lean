/-
Lazy EFLAGS (lib86cpu keeps the six arithmetic flags in two words, `result` and `auxbits`) and
the emitted instruction sequences that set and read them.

Modelled: interface.cpp 1337-1382 (read_eflags, write_eflags), lib86cpu_priv.hpp 47-53, 173-174
(parity table), core/helpers.cpp 246-256 (write_eflags_helper), core/instructions.cpp 758-800
(the flag updates of verrw_helper), core/emitter/x64/jit.cpp: 535-540, 1584-1837 (flag helpers),
2834-3007 (shifts), 4318-4610 (adc, add, and), 4975-5060 (clc, cmc), 5457-5520 (cmpxchg),
5751-5790 (dec), 6928-6975 (inc), 7162-7425 (jcc), 7573-7606 (lahf), 8806-8845 (neg),
9336-9447 (popf), 9641-9705 (pushf), 9883-9912 (sahf), 9924-10040 (sbb), 10398-10412 (stc),
10561-10640 (sub).

Simplification, common to all definitions below: the emitted host instructions are modelled as
the function from operand values to (result, new flag words) they compute; which host register
holds which operand is not modelled.
-/
namespace Verif.Flags

/-- lib86cpu_priv.hpp 165-175 (lazy_eflags_t) and regs.eflags: `eflags` holds the flags that are
not arithmetic, `res` and `aux` the lazy ones. -/
structure St where
  eflags : BitVec 32
  res : BitVec 32
  aux : BitVec 32
deriving DecidableEq, Repr

/-- lib86cpu_priv.hpp 50: `P2(n)`. -/
def p2 (n : Nat) : List Nat := [n, n ^^^ 1, n ^^^ 1, n]
/-- lib86cpu_priv.hpp 51: `P4(n)`. -/
def p4 (n : Nat) : List Nat := p2 n ++ p2 (n ^^^ 1) ++ p2 (n ^^^ 1) ++ p2 n
/-- lib86cpu_priv.hpp 52: `P6(n)`. -/
def p6 (n : Nat) : List Nat := p4 n ++ p4 (n ^^^ 1) ++ p4 (n ^^^ 1) ++ p4 n
/-- lib86cpu_priv.hpp 53, 174: the 256 entry parity table. -/
def parityTable : List Nat := p6 0 ++ p6 1 ++ p6 1 ++ p6 0

/-- `parity[i]` for an index already masked to a byte. -/
def parity (i : BitVec 8) : BitVec 32 := BitVec.ofNat 32 (parityTable.getD i.toNat 0)

/-- The table index used everywhere: `(result ^ (auxbits >> 8)) & 0xFF`. -/
def parIdx (s : St) : BitVec 8 := (s.res ^^^ (s.aux >>> 8)).setWidth 8

/-- interface.cpp 1339-1345: the arithmetic part of read_eflags. -/
def arithFlags (s : St) : BitVec 32 :=
  ((s.aux &&& 0x80000000#32) >>> 31) |||
  ((parity (parIdx s) ^^^ 1#32) <<< 2) |||
  ((s.aux &&& 8#32) <<< 1) |||
  ((if s.res = 0#32 then 1#32 else 0#32) <<< 6) |||
  (((s.res >>> 31) ^^^ (s.aux &&& 1#32)) <<< 7) |||
  (((s.aux ^^^ (s.aux <<< 1)) &&& 0x80000000#32) >>> 20)

/-- interface.cpp 1337-1350: read_eflags. -/
def readEflags (s : St) : BitVec 32 := s.eflags ||| arithFlags s

/-- interface.cpp 1361-1375: the lazy words write_eflags computes. -/
def lazyRes (v : BitVec 32) : BitVec 32 := ((v &&& 0x40#32) <<< 2) ^^^ 0x100#32
/-- interface.cpp 1361-1375: the lazy words write_eflags computes. -/
def lazyAux (v : BitVec 32) : BitVec 32 :=
  ((v &&& 1#32) <<< 31) |||
  ((((v &&& 1#32) <<< 11) ^^^ (v &&& 0x800#32)) <<< 19) |||
  ((v &&& 0x10#32) >>> 1) |||
  ((((v &&& 4#32) >>> 2) ^^^ 1#32) <<< 8) |||
  ((v &&& 0x80#32) >>> 7)

/-- interface.cpp 1359-1382: write_eflags, `reg32` as in the api. -/
def writeEflags (s : St) (v : BitVec 32) (reg32 : Bool) : St :=
  { res := lazyRes v, aux := lazyAux v,
    eflags := if reg32 then (s.eflags &&& 2#32) ||| (v &&& 0x3F7700#32)
              else (s.eflags &&& 0xFFFF0002#32) ||| (v &&& 0x7700#32) }

/-- helpers.cpp 246-256: write_eflags_helper. -/
def writeEflagsHelper (s : St) (v mask : BitVec 32) : St :=
  let cf := v &&& 1#32
  let ofNew := (((v &&& 0x800#32) >>> 11) ^^^ cf) <<< 30
  { eflags := ((s.eflags &&& ~~~mask) ||| (v &&& mask)) ||| 2#32
    res := ((v &&& 0x40#32) ^^^ 0x40#32) <<< 2
    aux := (cf <<< 31) ||| ((v &&& 0x10#32) >>> 1) ||| ofNew ||| ((v &&& 0x80#32) >>> 7) |||
           ((4#32 ^^^ (v &&& 4#32)) <<< 6) }

/-- jit.cpp 1584-1625 (gen_sum_vec16_8, gen_sum_vec32): the carry vector of `a + b = s`. -/
def sumVec {n : Nat} (a b s : BitVec n) : BitVec n := ((a ||| b) &&& ~~~s) ||| (a &&& b)

/-- jit.cpp 1627-1683 (gen_sub_vec16_8, gen_sub_vec32): the borrow vector of `a - b = s`. -/
def subVec {n : Nat} (a b s : BitVec n) : BitVec n := (~~~a &&& b) ||| (~~~(a ^^^ b) &&& s)

/-- jit.cpp 1591-1609, 1624, 1669-1681: bits n-1, n-2 and 3 of the vector go to bits 31, 30 and 3
of `auxbits`. -/
def placeAux {n : Nat} (v : BitVec n) : BitVec 32 :=
  if n = 32 then v.setWidth 32 &&& 0xC0000008#32
  else (((v.setWidth 32) <<< (32 - n)) ||| v.setWidth 32) &&& 0xC0000008#32

/-- jit.cpp 1685-1737: set_flags_sum. -/
def setFlagsSum {n : Nat} (s : St) (a b sum : BitVec n) : St :=
  { s with res := sum.signExtend 32, aux := placeAux (sumVec a b sum) }

/-- jit.cpp 1739-1793: set_flags_sub. -/
def setFlagsSub {n : Nat} (s : St) (a b sub : BitVec n) : St :=
  { s with res := sub.signExtend 32, aux := placeAux (subVec a b sub) }

/-- jit.cpp 1795-1812: set_flags. -/
def setFlags {n : Nat} (s : St) (r : BitVec n) (aux : BitVec 32) : St :=
  { s with res := r.signExtend 32, aux := aux }

/-- jit.cpp 535: LD_CF. -/
def ldCf (s : St) : BitVec 32 := s.aux &&& 0x80000000#32
/-- jit.cpp 1814-1820: ld_of. -/
def ldOf (aux : BitVec 32) : BitVec 32 := ((aux + aux) ^^^ aux) &&& 0x80000000#32
/-- jit.cpp 537: LD_ZF (the flag is set iff this is zero). -/
def ldZf (s : St) : BitVec 32 := s.res
/-- jit.cpp 1822-1828: ld_sf. -/
def ldSf (res aux : BitVec 32) : BitVec 32 := (res >>> 31) ^^^ (aux &&& 1#32)
/-- jit.cpp 1830-1840: ld_pf (zero iff PF is set). -/
def ldPf (s : St) : BitVec 32 := parity (parIdx s)
/-- jit.cpp 540: LD_AF. -/
def ldAf (s : St) : BitVec 32 := s.aux &&& 8#32

/-- Carry flag as a value of the operand size: jit.cpp 4331-4332 (LD_CF, SHR 31). -/
def cfVal (n : Nat) (s : St) : BitVec n := (ldCf s >>> 31).setWidth n

/-- jit.cpp 4428-4500: ADD_. Returns the value written to the destination and the new state. -/
def addOp {n : Nat} (s : St) (a b : BitVec n) : BitVec n × St :=
  let r := a + b
  (r, setFlagsSum s a b r)

/-- jit.cpp 4317-4426: ADC. -/
def adcOp {n : Nat} (s : St) (a b : BitVec n) : BitVec n × St :=
  let r := (a + b) + cfVal n s
  (r, setFlagsSum s a b r)

/-- jit.cpp 10560-10645 (SUB_); CMP_ (5269-5350), CMPS (5353-5452) and SCAS (10047-10119) do the
same without writing the difference. -/
def subOp {n : Nat} (s : St) (a b : BitVec n) : BitVec n × St :=
  let r := a - b
  (r, setFlagsSub s a b r)

/-- jit.cpp 9923-10040: SBB. -/
def sbbOp {n : Nat} (s : St) (a b : BitVec n) : BitVec n × St :=
  let r := a - (cfVal n s + b)
  (r, setFlagsSub s a b r)

/-- jit.cpp 8805-8845: NEG_. -/
def negOp {n : Nat} (s : St) (a : BitVec n) : BitVec n × St :=
  let r := -a
  (r, setFlagsSub s 0#n a r)

/-- jit.cpp 5780-5789 and 6962-6971: put the carry flag `cf` (bit 31) of before the operation back
into `auxbits`, keeping the new overflow flag. -/
def keepCf (s : St) (cf : BitVec 32) : St :=
  { s with aux := ((((ldOf s.aux) ^^^ cf) >>> 1) ||| cf) ||| (s.aux &&& 0x3FFFFFFF#32) }

/-- jit.cpp 6927-6975: INC_. -/
def incOp {n : Nat} (s : St) (a : BitVec n) : BitVec n × St :=
  let r := a + 1#n
  (r, keepCf (setFlagsSum s a 1#n r) (ldCf s))

/-- jit.cpp 5750-5790: DEC_. -/
def decOp {n : Nat} (s : St) (a : BitVec n) : BitVec n × St :=
  let r := a - 1#n
  (r, keepCf (setFlagsSub s a 1#n r) (ldCf s))

/-- jit.cpp 4527-4610, 8895-8980, 10931-11020 (AND_, OR_, XOR_) and 10659-10705 (TEST_, result not
written): `r` is the result of the host operation. -/
def logicOp {n : Nat} (s : St) (r : BitVec n) : BitVec n × St := (r, setFlags s r 0#32)

/-- jit.cpp 10805-10850: XADD. Returns (new destination, new source, state). -/
def xaddOp {n : Nat} (s : St) (dst src : BitVec n) : BitVec n × BitVec n × St :=
  let r := dst + src
  (r, dst, setFlagsSum s dst src r)

/-- jit.cpp 5462-5518: CMPXCHG. Returns (new destination, new accumulator, state). -/
def cmpxchgOp {n : Nat} (s : St) (dst src acc : BitVec n) : BitVec n × BitVec n × St :=
  let sub := dst - acc
  if sub = 0#n then (src, acc, setFlagsSub s dst acc sub)
  else (dst, dst, setFlagsSub s dst acc sub)

/-- jit.cpp 4974-4985: CLC_. -/
def clcOp (s : St) : St := { s with aux := (s.aux &&& 0x3FFFFFFF#32) ||| (ldOf s.aux >>> 1) }

/-- jit.cpp 10397-10409: STC_. -/
def stcOp (s : St) : St :=
  { s with aux := ((ldOf s.aux >>> 1) ^^^ 0xC0000000#32) ||| (s.aux &&& 0x3FFFFFFF#32) }

/-- jit.cpp 5044-5060: CMC. -/
def cmcOp (s : St) : St :=
  let d := ~~~s.aux &&& 0x80000000#32
  { s with aux := (s.aux &&& 0x3FFFFFFF#32) ||| (d ||| (((ldOf s.aux) ^^^ d) >>> 1)) }

/-- jit.cpp 4638-4640, 5541-5543 (arpl, cmpxchg8b) and instructions.cpp 764 etc. (verr, verw):
clear ZF. -/
def clearZf (s : St) : St := { s with res := s.res ||| 0x100#32 }

/-- instructions.cpp 796-799 (verr, verw), jit.cpp 4646-4658 (arpl), 5549-5562 (cmpxchg8b):
set ZF. -/
def setZf (s : St) : St :=
  { s with
    res := 0#32
    aux := (s.aux &&& 0xFFFF00FE#32) |||
           (ldSf s.res s.aux ||| (((s.res <<< 8) ^^^ s.aux) &&& 0xFF00#32)) }

/-- jit.cpp 7572-7606: LAHF, the byte stored in AH. -/
def lahfOp (s : St) : BitVec 8 :=
  let r8 := (parity (parIdx s) ^^^ 1#32) ||| (if s.res = 0#32 then 0x10#32 else 0#32)
  let eax := ((s.res >>> 24) ^^^ (s.aux <<< 7)) &&& 0x80#32
  let r8 := (r8 <<< 2) ||| 2#32
  let ebx := (s.aux &&& 8#32) + (s.aux &&& 8#32)
  (eax ||| r8 ||| ebx ||| (s.aux >>> 31)).setWidth 8

/-- jit.cpp 9882-9912: SAHF, `ah` being the byte in AH. -/
def sahfOp (s : St) (ah : BitVec 8) : St :=
  let r8 : BitVec 32 := ah.setWidth 32
  let edx := ((r8 &&& 1#32) <<< 30) ^^^ (ldOf s.aux >>> 1)
  let ebx := ((r8 &&& 0x10#32) ||| (r8 >>> 6)) >>> 1
  { s with
    res := ~~~(r8 <<< 2) &&& 0x100#32
    aux := edx ||| ebx ||| (~~~(r8 <<< 6) &&& 0x100#32) ||| (r8 <<< 31) }

/-- jit.cpp 9658-9690: the arithmetic flags as PUSHF computes them. -/
def pushfArith (s : St) : BitVec 32 :=
  let r9 := ((parity (parIdx s) ^^^ 1#32) ||| (if s.res = 0#32 then 0x10#32 else 0#32)) <<< 2
  let eax := (s.aux >>> 12) ||| (((s.aux >>> 1) ^^^ s.aux) &&& 0x40000000#32)
  let edx := ((s.aux <<< 7) ^^^ (s.res >>> 24)) &&& 0x80#32
  (eax >>> 0x13) ||| r9 ||| edx ||| ((s.aux &&& 8#32) + (s.aux &&& 8#32))

/-- jit.cpp 9699-9704: the value PUSHFD pushes (not virtual 8086 mode). -/
def pushfdVal (s : St) : BitVec 32 := (s.eflags ||| pushfArith s) &&& 0xFCFFFF#32

/-- jit.cpp 9688-9698: the value PUSHF pushes with 16 bit operand size (not virtual 8086 mode). -/
def pushfVal (s : St) : BitVec 16 := s.eflags.setWidth 16 ||| (pushfArith s).setWidth 16

/-- jit.cpp 9337-9341, 9395-9410: the mask of POPF outside virtual 8086 mode. -/
def popfMask (cpl iopl : BitVec 32) (size32 : Bool) : BitVec 32 :=
  let m : BitVec 32 := 0x100#32 ||| 0x400#32 ||| 0x4000#32
  let m := if cpl = 0#32 then m ||| (0x3000#32 ||| 0x200#32)
           else if cpl.toNat ≤ iopl.toNat then m ||| 0x200#32 else m
  if size32 then m ||| (0x200000#32 ||| 0x40000#32) else m

/-- jit.cpp 9417-9447: the flag update of POPF; `v` is the popped value, zero extended. -/
def popfUpdate (s : St) (v mask : BitVec 32) : St :=
  let edx := ((((v <<< 0xB) ^^^ v) &&& 0x800#32) ||| (v <<< 0xC)) <<< 0x13
  let ebx := (((v >>> 6) &&& 2#32) ||| (v &&& 0x10#32)) >>> 1
  { eflags := ((s.eflags &&& ~~~mask) ||| (v &&& mask)) ||| 2#32
    res := ~~~(v <<< 2) &&& 0x100#32
    aux := edx ||| ebx ||| (~~~(v <<< 6) &&& 0x100#32) }

/-- jit.cpp 9336-9450: POPF outside virtual 8086 mode; iopl is taken from the current eflags. -/
def popfOp (s : St) (v : BitVec 32) (cpl : BitVec 32) (size32 : Bool) : St :=
  popfUpdate s (if size32 then v else v &&& 0xFFFF#32)
    (popfMask cpl ((s.eflags &&& 0x3000#32) >>> 12) size32)

/-- Whether a condition is true as JCC (7162-7425), SETcc (10123-10300) and CMOVcc (5062-5235) test
it: comparisons of the loaded words against constants. -/
inductive CC where
  | o | no | b | nb | z | nz | be | nbe | s | ns | p | np | l | nl | le | nle
deriving DecidableEq, Repr

/-- jit.cpp 7162-7425: the test each conditional jump performs. -/
def ccTest (s : St) : CC → Bool
  | .o => ldOf s.aux == 0x80000000#32
  | .no => ldOf s.aux == 0#32
  | .b => ldCf s == 0x80000000#32
  | .nb => ldCf s == 0#32
  | .z => ldZf s == 0#32
  | .nz => ldZf s != 0#32
  | .be => ((if ldCf s == 0x80000000#32 then 1#32 else 0#32) |||
            (if ldZf s == 0#32 then 1#32 else 0#32)) == 1#32
  | .nbe => ((if ldCf s == 0#32 then 1#32 else 0#32) &&&
             (if ldZf s == 0#32 then 0#32 else 1#32)) == 1#32
  | .s => ldSf s.res s.aux == 1#32
  | .ns => ldSf s.res s.aux == 0#32
  | .p => ldPf s == 0#32
  | .np => ldPf s == 1#32
  | .l => ((ldOf s.aux >>> 31) ^^^ ldSf s.res s.aux) == 1#32
  | .nl => ((ldOf s.aux >>> 31) ^^^ ldSf s.res s.aux) == 0#32
  | .le => ((if ldZf s == 0#32 then 1#32 else 0#32) |||
            (if (ldSf s.res s.aux ^^^ (ldOf s.aux >>> 31)) == 1#32 then 1#32 else 0#32)) == 1#32
  | .nle => ((if ldZf s == 0#32 then 0#32 else 1#32) &&&
             (if (ldSf s.res s.aux ^^^ (ldOf s.aux >>> 31)) == 0#32 then 1#32 else 0#32)) == 1#32

end Verif.Flags
