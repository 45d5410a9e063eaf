import Verif.Model.GuestMem
/-
Segmentation: descriptors, segment loads and far transfers in protected, real and vm86 mode
(core/helpers.cpp 10-276, core/instructions.cpp 14-862, core/emitter/x64/jit.cpp far transfers), and
the hidden mode bits `hflags` (core/internal.hpp 62-108) they maintain.
-/
namespace Verif.Seg
open Guest (Mem load store)

/-- Visible selector and hidden part of a segment register (core/internal.hpp 164, lib86cpu.h). -/
structure SegReg where
  sel : BitVec 16
  base : BitVec 32
  limit : BitVec 32
  flags : BitVec 32

/-- The six segment registers with an instruction level name, core/internal.hpp 176-181. -/
inductive SR where
  | es | cs | ss | ds | fs | gs

/-- The registers segmentation reads or writes.  `eflags` is regs.eflags (the system flags), `arith`
the six arithmetic flags, which the code keeps lazily (C15-C17 cover that encoding). -/
structure Regs where
  es : SegReg
  cs : SegReg
  ss : SegReg
  ds : SegReg
  fs : SegReg
  gs : SegReg
  ldtr : SegReg
  tr : SegReg
  gdtBase : BitVec 32
  gdtLimit : BitVec 32
  idtBase : BitVec 32
  idtLimit : BitVec 32
  cr0 : BitVec 32
  cr2 : BitVec 32
  cr3 : BitVec 32
  cr4 : BitVec 32
  dr7 : BitVec 32
  esp : BitVec 32
  eip : BitVec 32
  eflags : BitVec 32
  arith : BitVec 32
  hflags : BitVec 32

/-- Registers and linear memory. -/
structure Cpu where
  r : Regs
  mem : Mem

/-- Which accesses (address, size, is a write, is_priv argument) do not page fault; it may depend on
the whole state (page tables, CPL): C18-C24 are about this part. -/
abbrev Acc := Cpu → BitVec 32 → Nat → Bool → Nat → Bool

/-- Why a helper stopped: it returned 1 after raise_exp_helper (helpers.cpp 97-103), a memory access
threw a page fault, or the emulator aborted (LIB86CPU_ABORT). -/
inductive Stop where
  | exc (idx : Nat) (code : BitVec 16)
  | fault
  | abort
deriving DecidableEq

/-- A helper either completes or stops; the state at that point is kept. -/
inductive Res (α : Type) where
  | ok (a : α) (s : Cpu)
  | stop (e : Stop) (s : Cpu)

/-- Code running on the cpu state. -/
def M (α : Type) := Cpu → Res α

instance : Monad M where
  pure a := fun s => .ok a s
  bind m f := fun s => match m s with
    | .ok a s' => f a s'
    | .stop e s' => .stop e s'

/-- Read the registers. -/
def getR : M Regs := fun s => .ok s.r s
/-- Change the registers. -/
def modR (f : Regs → Regs) : M Unit := fun s => .ok () { s with r := f s.r }
/-- raise_exp_helper and LIB86CPU_ABORT, helpers.cpp 97-103. -/
def stop {α : Type} (e : Stop) : M α := fun s => .stop e s
/-- `if (c) return raise_exp_helper(...)`. -/
def check (c : Bool) (e : Stop) : M Unit := fun s => if c then .stop e s else .ok () s

/-- mem_read_helper of `k` bytes, memory_management.hpp. -/
def rd (acc : Acc) (a : BitVec 32) (k priv : Nat) : M Nat := fun s =>
  if acc s a k false priv then .ok (load s.mem a k) s else .stop .fault s
/-- mem_write_helper of `k` bytes, memory_management.hpp. -/
def wr (acc : Acc) (a : BitVec 32) (k priv : Nat) (v : Nat) : M Unit := fun s =>
  if acc s a k true priv then .ok () { s with mem := store s.mem a k v } else .stop .fault s

/-- Exception numbers, core/internal.hpp 245-262. -/
abbrev GP := 13
/-- core/internal.hpp 255 -/
abbrev NP := 11
/-- core/internal.hpp 256 -/
abbrev SSx := 12
/-- core/internal.hpp 254 -/
abbrev TS := 10

/-! hflags masks, core/internal.hpp 62-102. -/

/-- core/internal.hpp 84 -/
abbrev H_CPL : BitVec 32 := 3#32
/-- core/internal.hpp 85 -/
abbrev H_CS32 : BitVec 32 := 4#32
/-- core/internal.hpp 86 -/
abbrev H_SS32 : BitVec 32 := 8#32
/-- core/internal.hpp 87 -/
abbrev H_PE : BitVec 32 := 16#32
/-- core/internal.hpp 165 -/
abbrev HID_DB : BitVec 32 := 0x400000#32

/-- The `*_IS_ZERO` bit of a segment register: `1 << (reg + ZERO_SEL2HFLG)`, internal.hpp 97-103. -/
def zeroMask : SR → BitVec 32
  | .es => 0x200000#32
  | .cs => 0x400000#32
  | .ss => 0x800000#32
  | .ds => 0x1000000#32
  | .fs => 0x2000000#32
  | .gs => 0x4000000#32

/-- The register named by an index. -/
def Regs.get (r : Regs) : SR → SegReg
  | .es => r.es
  | .cs => r.cs
  | .ss => r.ss
  | .ds => r.ds
  | .fs => r.fs
  | .gs => r.gs

/-- Replace the register named by an index. -/
def Regs.set (r : Regs) (i : SR) (v : SegReg) : Regs :=
  match i with
  | .es => { r with es := v }
  | .cs => { r with cs := v }
  | .ss => { r with ss := v }
  | .ds => { r with ds := v }
  | .fs => { r with fs := v }
  | .gs => { r with gs := v }

/-- `base ? 0 : sel_mask`. -/
def isZero (base m : BitVec 32) : BitVec 32 := if base = 0#32 then m else 0#32

/-- instructions.cpp 28-100, write_seg_reg_helper, for the six segment registers. -/
def writeSeg (i : SR) (sel : BitVec 16) (base limit flags : BitVec 32) (r : Regs) : Regs :=
  let z := isZero base (zeroMask i)
  let r' := r.set i ⟨sel, base, limit, flags⟩
  match i with
  | .cs => { r' with
      hflags := ((flags &&& HID_DB) >>> 20 ||| (sel.setWidth 32 &&& H_CPL)) ||| z |||
        (r.hflags &&& ~~~(H_CS32 ||| H_CPL ||| zeroMask .cs)) }
  | .ss => { r' with
      hflags := (flags &&& HID_DB) >>> 19 ||| z ||| (r.hflags &&& ~~~(H_SS32 ||| zeroMask .ss)) }
  | i => { r' with hflags := z ||| (r.hflags &&& ~~~(zeroMask i)) }

/-- instructions.cpp 102-108, write_seg_reg_vm86_helper: A, W, S, DPL 3, P, and DC for CS. -/
def writeSegVm86 (i : SR) (sel : BitVec 16) (r : Regs) : Regs :=
  writeSeg i sel (sel.setWidth 32 <<< 4) 0xFFFF#32
    (match i with | .cs => 0xFB00#32 | _ => 0xF300#32) r

/-! Descriptor fields, core/internal.hpp 146-158. -/

/-- helpers.cpp 151-155, read_seg_desc_base_helper. -/
def descBase (d : BitVec 64) : BitVec 32 :=
  (((d &&& 0xFFFF0000#64) >>> 16) ||| ((d &&& 0xFF00000000#64) >>> 16) |||
    ((d &&& 0xFF00000000000000#64) >>> 32)).setWidth 32
/-- helpers.cpp 157-161, read_seg_desc_flags_helper. -/
def descFlags (d : BitVec 64) : BitVec 32 := ((d &&& 0xFFFFFFFF00000000#64) >>> 32).setWidth 32
/-- helpers.cpp 163-171, read_seg_desc_limit_helper. -/
def descLimit (d : BitVec 64) : BitVec 32 :=
  let l : BitVec 32 := ((d &&& 0xFFFF#64) ||| ((d &&& 0xF000000000000#64) >>> 32)).setWidth 32
  if d &&& 0x80000000000000#64 ≠ 0#64 then (l <<< 12) ||| 0xFFF#32 else l

/-- SEG_DESC_S: not a system descriptor. -/
def dS (d : BitVec 64) : Bool := d &&& 0x100000000000#64 != 0#64
/-- SEG_DESC_DC: a code descriptor. -/
def dCode (d : BitVec 64) : Bool := d &&& 0x80000000000#64 != 0#64
/-- SEG_DESC_C: a conforming (code) or expand down (data) descriptor. -/
def dConf (d : BitVec 64) : Bool := d &&& 0x40000000000#64 != 0#64
/-- SEG_DESC_W / SEG_DESC_R: a writable (data) or readable (code) descriptor. -/
def dRW (d : BitVec 64) : Bool := d &&& 0x20000000000#64 != 0#64
/-- SEG_DESC_P: present. -/
def dP (d : BitVec 64) : Bool := d &&& 0x800000000000#64 != 0#64
/-- SEG_DESC_DB: default size. -/
def dDB (d : BitVec 64) : Bool := d &&& 0x40000000000000#64 != 0#64
/-- `(desc & SEG_DESC_DPL) >> 45`. -/
def dDpl (d : BitVec 64) : BitVec 64 := (d &&& 0x600000000000#64) >>> 45
/-- `(desc & SEG_DESC_TY) >> 40`. -/
def dTy (d : BitVec 64) : BitVec 64 := (d &&& 0xF0000000000#64) >>> 40

/-- `hflags & HFLG_CPL`. -/
def cpl (r : Regs) : BitVec 64 := (r.hflags &&& H_CPL).setWidth 64
/-- `sel & 3`. -/
def rpl (sel : BitVec 16) : BitVec 64 := (sel &&& 3#16).setWidth 64
/-- `sel & 0xFFFC`: the error code of a selector. -/
def selErr (sel : BitVec 16) : BitVec 16 := sel &&& 0xFFFC#16
/-- `(sel >> 2) == 0`. -/
def isNull (sel : BitVec 16) : Bool := sel >>> 2 == 0#16

/-- helpers.cpp 105-140, read_seg_desc_helper: address and value of the descriptor of a selector. -/
def readDesc (acc : Acc) (isTss : Bool) (sel : BitVec 16) : M (BitVec 32 × BitVec 64) := do
  let r ← getR
  let ti := sel &&& 4#16 != 0#16
  check (isTss && ti) (.exc GP (selErr sel))
  let base := if ti then r.ldtr.base else r.gdtBase
  let limit := if ti then r.ldtr.limit else r.gdtLimit
  let a := base + ((sel >>> 3).setWidth 32) * 8#32
  check (base + limit < a + 7#32) (.exc GP (selErr sel))
  let v ← rd acc a 8 2
  pure (a, BitVec.ofNat 64 v)

/-- helpers.cpp 142-149, set_access_flg_seg_desc_helper. -/
def setAccessed (acc : Acc) (d : BitVec 64) (a : BitVec 32) : M Unit :=
  if ((d &&& 0x100000000000#64) >>> 44) ||| ((d &&& 0x10000000000#64) >>> 39) = 1#64 then
    wr acc a 8 2 (d ||| 0x10000000000#64).toNat
  else pure ()

/-- helpers.cpp 173-209, check_ss_desc_priv_helper; `lvl` is the CPL, or the RPL of the CS being
returned to. -/
def checkSs (acc : Acc) (sel : BitVec 16) (csRpl : Option (BitVec 64)) :
    M (BitVec 32 × BitVec 64) := do
  check (isNull sel) (.exc GP 0#16)
  let (a, d) ← readDesc acc false sel
  let r ← getR
  let lvl := csRpl.getD (cpl r)
  let v := ((d &&& 0x100000000000#64) >>> 44) ||| ((d &&& 0x80000000000#64) >>> 42) |||
    ((d &&& 0x20000000000#64) >>> 39) ||| ((d &&& 0x600000000000#64) >>> 42) ||| (rpl sel <<< 5)
  check (v ^^^ (5#64 ||| (lvl <<< 3) ||| (lvl <<< 5)) != 0#64) (.exc GP (selErr sel))
  check (!dP d) (.exc SSx (selErr sel))
  pure (a, d)

/-- helpers.cpp 211-242, check_seg_desc_priv_helper. -/
def checkSeg (acc : Acc) (sel : BitVec 16) : M (BitVec 32 × BitVec 64) := do
  let (a, d) ← readDesc acc false sel
  let r ← getR
  check (!dS d) (.exc GP (selErr sel))
  let dc := (d &&& 0x80000000000#64) >>> 43
  let rd' := (d &&& 0x20000000000#64) >>> 40
  check (dc ||| rd' == 1#64) (.exc GP (selErr sel))
  check ((dc == 0#64 || !dConf d) && (decide (dDpl d < rpl sel) && decide (dDpl d < cpl r)))
    (.exc GP (selErr sel))
  check (!dP d) (.exc NP (selErr sel))
  pure (a, d)

/-- The common `write_seg_reg_helper<reg>(cpu, sel, base(desc), limit(desc), flags(desc))`. -/
def loadDesc (i : SR) (sel : BitVec 16) (d : BitVec 64) : M Unit :=
  modR (writeSeg i sel (descBase d) (descLimit d) (descFlags d))

/-- instructions.cpp 723-754, mov_sel_pe_helper (used by MOV, POP and LDS/LES/LFS/LGS/LSS; the jit
never instantiates it for CS). -/
def movSelPe (acc : Acc) (i : SR) (sel : BitVec 16) : M Unit :=
  match i with
  | .ss => do
    let (a, d) ← checkSs acc sel none
    setAccessed acc d a
    loadDesc .ss sel d
  | i =>
    if isNull sel then modR (writeSeg i 0#16 0#32 0#32 0#32)
    else do
      let (a, d) ← checkSeg acc sel
      setAccessed acc d a
      loadDesc i sel d

/-- instructions.cpp 676-721, mov_sel_real_helper: real and vm86 mode. -/
def movSelReal (i : SR) (sel : BitVec 16) : M Unit := modR fun r =>
  let base : BitVec 32 := sel.setWidth 32 <<< 4
  { r.set i { r.get i with sel := sel, base := base } with
    hflags := isZero base (zeroMask i) ||| (r.hflags &&& ~~~(zeroMask i)) }

/-- jit.cpp 4847-4849, 4929-4933, 7496-7498, 7551-7555, 9830-9833: far JMP, CALL and RET in real and
vm86 mode store CS, its base and EIP only.  (The stack traffic of CALL and RET is C39.) -/
def farReal (sel : BitVec 16) (eip : BitVec 32) : M Unit := modR fun r =>
  { r with cs := { r.cs with sel := sel, base := sel.setWidth 32 <<< 4 }, eip := eip }

/-- helpers.cpp 245-255, write_eflags_helper. -/
def writeEflags (e mask : BitVec 32) (r : Regs) : Regs :=
  { r with eflags := ((r.eflags &&& ~~~mask) ||| (e &&& mask)) ||| 2#32, arith := e &&& 0x8D5#32 }

/-- helpers.cpp 54-94, stack_pop_helper: value and new stack pointer variable. -/
def popV (acc : Acc) (k : Nat) (sp : BitVec 32) : M (BitVec 32 × BitVec 32) := do
  let r ← getR
  let e : BitVec 32 := if r.hflags &&& H_SS32 ≠ 0#32 ∧ k = 4 then sp
    else (sp.setWidth 16 : BitVec 16).setWidth 32
  let v ← rd acc (e + r.ss.base) k 0
  pure (BitVec.ofNat 32 v, e + BitVec.ofNat 32 k)

/-- helpers.cpp 10-52, stack_push_helper: new stack pointer variable. -/
def pushV (acc : Acc) (k : Nat) (sp : BitVec 32) (v : BitVec 32) : M (BitVec 32) := do
  let r ← getR
  let e : BitVec 32 := if r.hflags &&& H_SS32 ≠ 0#32 ∧ k = 4 then sp - 4#32
    else ((sp.setWidth 16 : BitVec 16) - BitVec.ofNat 16 k).setWidth 32
  wr acc (e + r.ss.base) k 0 v.toNat
  pure e

/-- `stack_mask`. -/
def stackMask (big : Bool) : BitVec 32 := if big then 0xFFFFFFFF#32 else 0xFFFF#32

/-- instructions.cpp 110-153, validate_seg_helper: line 148 computes
`flags & ((3 << 13) >> 13)`, the precedence of the shift being higher than that of `&`. -/
def validateSeg (i : SR) (r : Regs) : Regs :=
  let flags := (r.get i).flags
  let c := flags &&& 0x400#32
  let d := flags &&& 0x800#32
  let s := flags &&& 0x1000#32
  let dpl := flags &&& (0x6000#32 >>> 13)
  let cpl := r.hflags &&& H_CPL
  if dpl < cpl ∧ (s ≠ 0#32 ∧ (d = 0#32 ∨ c = 0#32)) then writeSeg i 0#16 0#32 0#32 0#32 r else r

/-- instructions.cpp 316-346, iret_real_helper: real mode, and vm86 mode with IOPL 3. -/
def iretReal (acc : Acc) (k : Nat) : M Unit := do
  let r ← getR
  let (eip, sp) ← popV acc k r.esp
  let (cs, sp) ← popV acc k sp
  let (e, sp) ← popV acc k sp
  let m : BitVec 32 := if r.eflags &&& 0x20000#32 ≠ 0#32 then 0x254700#32 else 0x257700#32
  let m := if k = 2 then m &&& 0xFFFF#32 else m
  let sel : BitVec 16 := cs.setWidth 16
  modR fun r => writeEflags e m { r with
    esp := (r.esp &&& 0xFFFF0000#32) ||| (sp &&& 0xFFFF#32)
    eip := eip
    cs := { r.cs with sel := sel, base := sel.setWidth 32 <<< 4 } }

/-- instructions.cpp 186-211: IRET to vm86 mode, after EIP, CS and EFLAGS were popped. -/
def iretToVm86 (acc : Acc) (eip : BitVec 32) (cs : BitVec 16) (e sp : BitVec 32) : M Unit := do
  let (nesp, sp) ← popV acc 4 sp
  let (ss, sp) ← popV acc 4 sp
  let (es, sp) ← popV acc 4 sp
  let (ds, sp) ← popV acc 4 sp
  let (fs, sp) ← popV acc 4 sp
  let (gs, _) ← popV acc 4 sp
  modR fun r =>
    let r := writeEflags e 0x3E7300#32 r
    let r := writeSegVm86 .cs cs r
    let r := writeSegVm86 .ss (ss.setWidth 16) r
    let r := writeSegVm86 .es (es.setWidth 16) r
    let r := writeSegVm86 .ds (ds.setWidth 16) r
    let r := writeSegVm86 .fs (fs.setWidth 16) r
    let r := writeSegVm86 .gs (gs.setWidth 16) r
    { r with esp := nesp, eip := eip, hflags := (r.hflags &&& ~~~H_CPL) ||| 3#32 }

/-- instructions.cpp 213-223: the flags an IRET in protected mode may change. -/
def iretMask (k : Nat) (r : Regs) : BitVec 32 :=
  let c := r.hflags &&& H_CPL
  let m := if k = 2 then 0x4500#32
    else if c = 0#32 then 0x254500#32 ||| 0x1A3000#32 else 0x254500#32
  if c ≤ (r.eflags &&& 0x3000#32) >>> 12 then m ||| 0x200#32 else m

/-- instructions.cpp 231-313: the part of lret_pe_helper after the return address was popped;
`e` holds the popped EFLAGS and their mask for IRET. -/
def retPe (acc : Acc) (k : Nat) (eip : BitVec 32) (cs : BitVec 16) (sp : BitVec 32)
    (e : Option (BitVec 32 × BitVec 32)) : M Unit := do
  check (isNull cs) (.exc GP 0#16)
  let (a, d) ← readDesc acc false cs
  let r ← getR
  check (!(dS d && dCode d)) (.exc GP (selErr cs))
  check (decide (rpl cs < cpl r)) (.exc GP (selErr cs))
  check (dConf d && decide (rpl cs < dDpl d)) (.exc GP (selErr cs))
  check (!dP d) (.exc NP (selErr cs))
  if cpl r < rpl cs then
    let (nesp, sp) ← popV acc k sp
    let (ssv, _) ← popV acc k sp
    let ss : BitVec 16 := ssv.setWidth 16
    let (sa, sd) ← checkSs acc ss (some (rpl cs))
    setAccessed acc sd sa
    setAccessed acc d a
    loadDesc .ss ss sd
    loadDesc .cs cs d
    modR fun r =>
      let m := stackMask (r.ss.flags &&& HID_DB != 0#32)
      let r := { r with esp := (r.esp &&& ~~~m) ||| (nesp &&& m), eip := eip }
      validateSeg .gs (validateSeg .fs (validateSeg .es (validateSeg .ds r)))
  else
    setAccessed acc d a
    modR fun r =>
      let m := stackMask (r.hflags &&& H_SS32 != 0#32)
      { r with esp := (r.esp &&& ~~~m) ||| (sp &&& m), eip := eip }
    loadDesc .cs cs d
  match e with
  | some (v, m) => modR (writeEflags v m)
  | none => pure ()

/-- instructions.cpp 155-314, lret_pe_helper<false>: RETF in protected mode.  (The immediate added to
ESP afterwards by the jit, 9838-9850, is not part of the helper.) -/
def lretPe (acc : Acc) (k : Nat) : M Unit := do
  let r ← getR
  let (eip, sp) ← popV acc k r.esp
  let (cs, sp) ← popV acc k sp
  retPe acc k eip (cs.setWidth 16) sp none

/-- instructions.cpp 155-314, lret_pe_helper<true>: IRET in protected or vm86 mode. -/
def iretPe (acc : Acc) (k : Nat) : M Unit := do
  let r ← getR
  if r.eflags &&& 0x20000#32 ≠ 0#32 then
    if (r.eflags &&& 0x3000#32) >>> 12 = 3#32 then iretReal acc k else stop (.exc GP 0#16)
  else do
    check (r.eflags &&& 0x4000#32 != 0#32) .abort
    let (eip, sp) ← popV acc k r.esp
    let (cs, sp) ← popV acc k sp
    let (e, sp) ← popV acc k sp
    if e &&& 0x20000#32 ≠ 0#32 then iretToVm86 acc eip (cs.setWidth 16) e sp
    else retPe acc k eip (cs.setWidth 16) sp (some (e, iretMask k r))

/-- instructions.cpp 348-459, ljmp_pe_helper. -/
def ljmpPe (acc : Acc) (sel : BitVec 16) (k : Nat) (jmp : BitVec 32) : M Unit := do
  let r ← getR
  check (isNull sel) (.exc GP 0#16)
  let (a, d) ← readDesc acc false sel
  if dS d then
    check (!dCode d) (.exc GP (selErr sel))
    if dConf d then check (decide (cpl r < dDpl d)) (.exc GP (selErr sel))
    else check (decide (cpl r < rpl sel) || dDpl d != cpl r) (.exc GP (selErr sel))
    check (!dP d) (.exc NP (selErr sel))
    setAccessed acc d a
    loadDesc .cs (selErr sel ||| (cpl r).setWidth 16) d
    modR fun r => { r with eip := if k = 2 then jmp &&& 0xFFFF#32 else jmp }
  else
    check (dTy d == 1#64 || dTy d == 5#64 || dTy d == 9#64) .abort
    check (!(dTy d == 4#64 || dTy d == 12#64)) (.exc GP (selErr sel))
    check (decide (dDpl d < cpl r) || decide (dDpl d < rpl sel)) (.exc GP (selErr sel))
    check (!dP d) (.exc NP (selErr sel))
    let csel : BitVec 16 := ((d &&& 0xFFFF0000#64) >>> 16).setWidth 16
    check (isNull csel) (.exc GP 0#16)
    let (ca, cd) ← readDesc acc false csel
    check (!(dS cd && dCode cd) || (dConf cd && decide (cpl r < dDpl cd)) ||
      (!dConf cd && dDpl cd != cpl r)) (.exc GP (selErr csel))
    check (!dP cd) (.exc NP (selErr csel))
    setAccessed acc cd ca
    loadDesc .cs (selErr sel ||| (cpl r).setWidth 16) cd
    modR fun r => { r with eip := if dTy d >>> 3 = 0#64 then jmp &&& 0xFFFF#32 else jmp }

/-- helpers.cpp 257-277, read_stack_ptr_from_tss_helper: stack pointer and selector. -/
def tssStack (acc : Acc) (dpl : Nat) (priv : Nat) : M (BitVec 32 × BitVec 16) := do
  let r ← getR
  let ty := if r.tr.flags &&& 0x800#32 ≠ 0#32 then 1 else 0
  let idx := 2 * 2 ^ ty + dpl * (4 * 2 ^ ty)
  check (decide (r.tr.limit.toNat < idx + 4 * 2 ^ ty - 1)) (.exc TS (selErr r.tr.sel))
  let w := 2 * 2 ^ ty
  let e ← rd acc (r.tr.base + BitVec.ofNat 32 idx) w priv
  let s ← rd acc (r.tr.base + BitVec.ofNat 32 (idx + w)) 2 priv
  pure (BitVec.ofNat 32 e, BitVec.ofNat 16 s)

/-- One `esp -= k; mem_write_helper<k>(stack_base + (esp & stack_mask), v, priv)`. -/
def pushRaw (acc : Acc) (k : Nat) (base mask : BitVec 32) (priv : Nat) (sp v : BitVec 32) :
    M (BitVec 32) := do
  let sp := sp - BitVec.ofNat 32 k
  wr acc (base + (sp &&& mask)) k priv v.toNat
  pure sp

/-- instructions.cpp 600-606 and 621-627: copy `n` parameters from the old stack, the last one first. -/
def copyParams (acc : Acc) (k : Nat) (base mask obase oesp : BitVec 32) : Nat → BitVec 32 → M (BitVec 32)
  | 0, sp => pure sp
  | n + 1, sp => do
    let v ← rd acc (obase + ((oesp + BitVec.ofNat 32 (n * k)) &&& mask)) k 2
    let sp ← pushRaw acc k base mask 2 sp (BitVec.ofNat 32 v)
    copyParams acc k base mask obase oesp n sp

/-- instructions.cpp 464-673, lcall_pe_helper.  The final `(new_eip & ~mask) | (new_eip & mask)` is
`new_eip` for both gate sizes. -/
def lcallPe (acc : Acc) (sel : BitVec 16) (call : BitVec 32) (k : Nat) (ret : BitVec 32) : M Unit := do
  let r ← getR
  check (isNull sel) (.exc GP 0#16)
  let (a, d) ← readDesc acc false sel
  if dS d then
    check (!dCode d) (.exc GP (selErr sel))
    if dConf d then check (decide (cpl r < dDpl d)) (.exc GP (selErr sel))
    else check (decide (cpl r < rpl sel) || dDpl d != cpl r) (.exc GP (selErr sel))
    check (!dP d) (.exc NP (selErr sel))
    let sp ← pushV acc k r.esp (r.cs.sel.setWidth 32)
    let sp ← pushV acc k sp ret
    setAccessed acc d a
    loadDesc .cs (selErr sel ||| (cpl r).setWidth 16) d
    modR fun r => { r with esp := sp, eip := call }
  else
    check (dTy d == 1#64 || dTy d == 5#64 || dTy d == 9#64) .abort
    check (!(dTy d == 4#64 || dTy d == 12#64)) (.exc GP (selErr sel))
    check (decide (dDpl d < cpl r) || decide (dDpl d < rpl sel)) (.exc GP (selErr sel))
    check (!dP d) (.exc NP (selErr sel))
    let nparam := (d >>> 32 &&& 0x1F#64).toNat
    let neip : BitVec 32 :=
      (((d &&& 0xFFFF000000000000#64) >>> 32) ||| (d &&& 0xFFFF#64)).setWidth 32
    let csel : BitVec 16 := ((d &&& 0xFFFF0000#64) >>> 16).setWidth 16
    check (isNull csel) (.exc GP 0#16)
    let (ca, cd) ← readDesc acc false csel
    check (!(dS cd && dCode cd) || decide (cpl r < dDpl cd)) (.exc GP (selErr csel))
    check (!dP cd) (.exc NP (selErr csel))
    let w := if dTy d >>> 3 = 0#64 then 2 else 4
    let mut sp := r.esp
    if !dConf cd && decide (dDpl cd < cpl r) then
      let (tesp, ss) ← tssStack acc (dDpl cd).toNat 0
      check (isNull ss) (.exc TS (selErr ss))
      let (sa, sd) ← readDesc acc false ss
      let v := ((sd &&& 0x100000000000#64) >>> 44) ||| ((sd &&& 0x80000000000#64) >>> 42) |||
        ((sd &&& 0x20000000000#64) >>> 39) ||| ((sd &&& 0x600000000000#64) >>> 42) ||| (rpl ss <<< 5)
      check (v ^^^ (5#64 ||| (dDpl cd <<< 3) ||| (dDpl cd <<< 5)) != 0#64) (.exc TS (selErr ss))
      check (!dP sd) (.exc SSx (selErr ss))
      let mask := stackMask (dDB sd)
      let base := descBase sd
      sp ← pushRaw acc w base mask 2 tesp (r.ss.sel.setWidth 32)
      sp ← pushRaw acc w base mask 2 sp r.esp
      sp ← copyParams acc w base mask r.ss.base r.esp nparam sp
      sp ← pushRaw acc w base mask 2 sp (r.cs.sel.setWidth 32)
      sp ← pushRaw acc w base mask 2 sp ret
      setAccessed acc sd sa
      loadDesc .ss (selErr ss ||| (dDpl cd).setWidth 16) sd
    else
      let mask := stackMask (r.hflags &&& H_SS32 != 0#32)
      sp ← pushRaw acc w r.ss.base mask 0 sp (r.cs.sel.setWidth 32)
      sp ← pushRaw acc w r.ss.base mask 0 sp ret
    setAccessed acc cd ca
    loadDesc .cs (selErr csel ||| (dDpl cd).setWidth 16) cd
    modR fun r => { r with esp := sp, eip := neip }

/-- instructions.cpp 802-832, ltr_helper. -/
def ltr (acc : Acc) (sel : BitVec 16) : M Unit := do
  check (isNull sel) (.exc GP 0#16)
  let (a, d) ← readDesc acc true sel
  let t := ((d &&& 0x100000000000#64) >>> 40) ||| dTy d
  check (!(t == 1#64 || t == 9#64)) (.exc GP (selErr sel))
  check (!dP d) (.exc NP (selErr sel))
  wr acc a 8 2 (d ||| 0x20000000000#64).toNat
  modR fun r => { r with tr := ⟨sel, descBase d, descLimit d, descFlags d⟩ }

/-- instructions.cpp 834-863, lldt_helper. -/
def lldt (acc : Acc) (sel : BitVec 16) : M Unit :=
  if isNull sel then modR fun r => { r with ldtr := ⟨0#16, 0#32, 0#32, 0#32⟩ }
  else do
    let (_, d) ← readDesc acc false sel
    let t := ((d &&& 0x100000000000#64) >>> 40) ||| dTy d
    check (t != 2#64) (.exc GP (selErr sel))
    check (!dP d) (.exc NP (selErr sel))
    modR fun r => { r with ldtr := ⟨sel, descBase d, descLimit d, descFlags d⟩ }

/-- instructions.cpp 756-800, verrw_helper: the new ZF (the exception data read_seg_desc_helper may
have written is ignored; a page fault is not). -/
def verrw (acc : Acc) (isVerr : Bool) (sel : BitVec 16) : M Bool := fun s =>
  if isNull sel then .ok false s else
  match readDesc acc false sel s with
  | .stop (.exc _ _) s => .ok false s
  | .stop e s => .stop e s
  | .ok (_, d) s =>
    if !dS d || (d &&& 0xC0000000000#64 != 0xC0000000000#64 &&
        (decide (dDpl d < cpl s.r) || decide (dDpl d < rpl sel))) then .ok false s
    else if isVerr then .ok (d &&& 0xA0000000000#64 != 0x80000000000#64) s
    else .ok (d &&& 0xA0000000000#64 == 0x20000000000#64) s

end Verif.Seg
