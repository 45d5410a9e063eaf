/-
RDMSR and WRMSR: core/instructions.cpp 1063-1181 (msr_read_helper), 1183-1342 (msr_write_helper),
core/emitter/x64/jit.cpp 9743-9757, 10789-10803, core/internal.hpp 369-432, core/registers.hpp 107-127.
Arrays are functions of the index; C32_in_bounds shows that only existing elements are used.
-/
namespace Verif.Msr

/-- registers.hpp 107-127: msr_t. -/
structure St where
  base : Nat → BitVec 64
  mask : Nat → BitVec 64
  fixed : Nat → BitVec 64
  defType : BitVec 64
  biosSign : BitVec 64
  pat : BitVec 64
  sysCs : BitVec 64
  sysEsp : BitVec 64
  sysEip : BitVec 64
  mcgCap : BitVec 64
  mcgStatus : BitVec 64
  mcgCtl : BitVec 64
  bank : Nat → Nat → BitVec 64
  ebl : BitVec 64

/-- Array store. -/
def set (f : Nat → BitVec 64) (i : Nat) (v : BitVec 64) : Nat → BitVec 64 := fun j => if j = i then v else f j

/-- Which case of the switch (with the array index) a register number selects. -/
inductive Sel where
  | apicBase | ebl | updtTrig | biosSign | mtrrCap | sysCs | sysEsp | sysEip | mcgCap | mcgStatus | mcgCtl
  | base (i : Nat) | mask (i : Nat) | fixed (i : Nat) | pat | defType | bank (i j : Nat) | unknown
deriving DecidableEq

/-- instructions.cpp 1067-1176 and 1188-1338: the case labels, identical in both functions. -/
def sel (e : Nat) : Sel :=
  if e = 0x1B then .apicBase else if e = 0x2A then .ebl else if e = 0x79 then .updtTrig
  else if e = 0x8B then .biosSign else if e = 0xFE then .mtrrCap else if e = 0x174 then .sysCs
  else if e = 0x175 then .sysEsp else if e = 0x176 then .sysEip else if e = 0x179 then .mcgCap
  else if e = 0x17A then .mcgStatus else if e = 0x17B then .mcgCtl
  else if 0x200 ≤ e ∧ e ≤ 0x20E ∧ e % 2 = 0 then .base ((e - 0x200) / 2)
  else if 0x201 ≤ e ∧ e ≤ 0x20F ∧ e % 2 = 1 then .mask ((e - 0x201) / 2)
  else if e = 0x250 then .fixed 0
  else if e = 0x258 ∨ e = 0x259 then .fixed (e - 0x258 + 1)
  else if 0x268 ≤ e ∧ e ≤ 0x26F then .fixed (e - 0x268 + 3)
  else if e = 0x277 then .pat else if e = 0x2FF then .defType
  else if 0x400 ≤ e ∧ e < 0x400 + 10 * 4 then .bank ((e - 0x400) / 4) (e - 0x400 &&& 3)
  else .unknown

/-- instructions.cpp 1063-1181; `none` is LIB86CPU_ABORT. -/
def read (s : St) (e : Nat) : Option (BitVec 64) :=
  match sel e with
  | .apicBase => some 0x100#64
  | .ebl => some s.ebl
  | .updtTrig => some 0#64
  | .biosSign => some s.biosSign
  | .mtrrCap => some (8#64 ||| 0x100#64 ||| 0x400#64)
  | .sysCs => some (s.sysCs &&& 0xFFFFFFFF#64)
  | .sysEsp => some s.sysEsp
  | .sysEip => some s.sysEip
  | .mcgCap => some s.mcgCap
  | .mcgStatus => some s.mcgStatus
  | .mcgCtl => some (if s.mcgCap &&& 0x100#64 ≠ 0#64 then s.mcgCtl else 0#64)
  | .base i => some (s.base i)
  | .mask i => some (s.mask i)
  | .fixed i => some (s.fixed i)
  | .pat => some s.pat
  | .defType => some s.defType
  | .bank i j => some (s.bank i j)
  | .unknown => none

inductive Res where
  | ok (s : St)
  | gp
  | abort

/-- instructions.cpp 1307-1312: one field of the PAT is a reserved type. -/
def patRes (v : BitVec 64) (i : Nat) : Bool := ((v >>> (i * 8)) &&& 7#64 == 2#64) || ((v >>> (i * 8)) &&& 7#64 == 3#64)

/-- instructions.cpp 1183-1342 (msr_write_helper). microcode_updated is not modelled. -/
def write (s : St) (e : Nat) (v : BitVec 64) : Res :=
  match sel e with
  | .apicBase => if v &&& 0xFFFFFFF0000006FF#64 ≠ 0#64 then .gp else .ok s
  | .ebl => if v &&& 0xFFFFFFFFF0000821#64 ≠ 0#64 then .gp
      else .ok { s with ebl := (s.ebl &&& ~~~0x40000DE#64) ||| (v &&& 0x40000DE#64) }
  | .updtTrig => .ok s
  | .biosSign => if v &&& 0xFFFFFFFF#64 ≠ 0#64 then .gp else .ok { s with biosSign := v }
  | .mtrrCap => .gp
  | .sysCs => .ok { s with sysCs := v &&& 0xFFFFFFFF#64 }
  | .sysEsp => .ok { s with sysEsp := v }
  | .sysEip => .ok { s with sysEip := v }
  | .mcgCap => .ok s
  | .mcgStatus => .gp
  | .mcgCtl => if s.mcgCap &&& 0x100#64 ≠ 0#64 ∧ (v = ~~~0#64 ∨ v = 0#64) then .ok { s with mcgCtl := v } else .ok s
  | .base i => if v &&& 0xFFFFFFF000000F00#64 ≠ 0#64 then .gp else .ok { s with base := set s.base i v }
  | .mask i => if v &&& 0xFFFFFFF0000007FF#64 ≠ 0#64 then .gp else .ok { s with mask := set s.mask i v }
  | .fixed i => .ok { s with fixed := set s.fixed i v }
  | .pat => if v &&& 0xF8F8F8F8F8F8F8F8#64 ≠ 0#64 then .gp
      else if (List.range 7).any (patRes v) then .gp else .ok { s with pat := v }
  | .defType => if v &&& 0xFFFFFFFFFFFFF300#64 ≠ 0#64 then .gp else .ok { s with defType := v }
  | .bank i j =>
      if j = 0 ∧ v ≠ ~~~0#64 ∧ v ≠ 0#64 then .ok s
      else if j ≠ 0 ∧ v ≠ 0#64 then .gp
      else .ok { s with bank := fun a b => if a = i ∧ b = j then v else s.bank a b }
  | .unknown => .abort

/-- translate.cpp 418-423: reset values (the rest of msr_t is zero). -/
def reset : St :=
  { base := fun _ => 0#64, mask := fun _ => 0#64, fixed := fun _ => 0#64, defType := 0#64, biosSign := 0#64,
    pat := 0#64, sysCs := 0#64, sysEsp := 0#64, sysEip := 0#64, mcgCap := 10#64 ||| 0x100#64 ||| 0x1000000#64,
    mcgStatus := 0#64, mcgCtl := ~~~0#64, bank := fun _ j => if j = 0 then ~~~0#64 else 0#64, ebl := 0xC5040000#64 }

/-- The registers the instructions use. -/
structure Regs where
  eax : BitVec 32
  ecx : BitVec 32
  edx : BitVec 32

inductive IRes where
  | ok (r : Regs) (s : St)
  | gp
  | abort

/-- jit.cpp 9743-9757 and instructions.cpp 1177-1180: RDMSR. -/
def rdmsr (cpl : BitVec 2) (r : Regs) (s : St) : IRes :=
  if cpl ≠ 0#2 then .gp else
  match read s r.ecx.toNat with
  | none => .abort
  | some v => .ok { r with edx := (v >>> 32).setWidth 32, eax := v.setWidth 32 } s

/-- jit.cpp 10789-10803 and instructions.cpp 1186: WRMSR. -/
def wrmsr (cpl : BitVec 2) (r : Regs) (s : St) : IRes :=
  if cpl ≠ 0#2 then .gp else
  match write s r.ecx.toNat ((r.edx.setWidth 64 <<< 32) ||| r.eax.setWidth 64) with
  | .ok s' => .ok r s'
  | .gp => .gp
  | .abort => .abort

end Verif.Msr
