import Verif.Model.Seg
/-
Exception and interrupt delivery: core/translate.cpp 498-972 (check_dbl_exp, cpu_raise_exception) and
its re-entry from the main loop when the delivery itself page faults (1478-1632).  Not modelled: the
debugger (526-533), the return stack push (967) which is C49.
-/
namespace Verif.Seg

/-- Template arguments of cpu_raise_exception: 0 an exception, 1 INT3, 2 INT n, 3 INTO; hardware
interrupt. -/
structure Kind where
  intn : Nat
  hw : Bool

/-- An exception raised by the cpu itself. -/
def Kind.exn : Kind := ⟨0, false⟩

/-- translate.cpp 547: EXT flag. -/
def Kind.ext (k : Kind) : BitVec 16 := if k.intn ≠ 0 then 0#16 else 1#16

/-- translate.cpp 664-689: whether an error code is pushed. -/
def hasCode (k : Kind) (idx : Nat) : Bool :=
  k.intn == 0 && !k.hw && (idx == 8 || idx == 10 || idx == 11 || idx == 12 || idx == 13 || idx == 14 || idx == 17)

/-- read_eflags. -/
def readEflags (r : Regs) : BitVec 32 := r.eflags ||| r.arith

/-- Run a helper and change the exception it raised. -/
def mapExc {α : Type} (f : Nat → BitVec 16 → Stop) (m : M α) : M α := fun s =>
  match m s with
  | .ok a s => .ok a s
  | .stop (.exc i c) s => .stop (f i c) s
  | .stop e s => .stop e s

/-- translate.cpp 703-744: the check_ss_desc lambda: stack pointer, selector and descriptor. -/
def newStack (acc : Acc) (ext : BitVec 16) (vm : Bool) (dpl : Nat) :
    M (BitVec 32 × BitVec 16 × BitVec 64) := do
  let (e, ss) ← mapExc (fun i c => .exc i (c + ext)) (tssStack acc dpl (if vm then 2 else 0))
  check (isNull ss) (.exc TS ext)
  let (a, d) ← mapExc (fun _ c => .exc TS (c + ext)) (readDesc acc false ss)
  let n := BitVec.ofNat 64 (if vm then 0 else dpl)
  let v := ((d &&& 0x100000000000#64) >>> 44) ||| ((d &&& 0x80000000000#64) >>> 42) |||
    ((d &&& 0x20000000000#64) >>> 39) ||| ((d &&& 0x600000000000#64) >>> 42) ||| (rpl ss <<< 5) |||
    ((d &&& 0x800000000000#64) >>> 40)
  check (v ^^^ (0x85#64 ||| (n <<< 3) ||| (n <<< 5)) != 0#64) (.exc TS (selErr ss + ext))
  setAccessed acc d a
  pure (e, ss, d)

/-- The push_regs lambdas, translate.cpp 755-788 and 871-893: push a list of values, first one first. -/
def pushAll (acc : Acc) (k : Nat) (base mask : BitVec 32) (priv : Nat) : List (BitVec 32) → BitVec 32 → M (BitVec 32)
  | [], sp => pure sp
  | v :: vs, sp => do
    let sp ← pushRaw acc k base mask priv sp v
    pushAll acc k base mask priv vs sp

/-- translate.cpp 561-606: INT n in vm86 mode with CR4.VME redirected through the vm86 program's own
interrupt table. -/
def vmeRedirect (acc : Acc) (idx : Nat) (cr2 : BitVec 32) : M Unit := do
  let r ← getR
  let iopl := (r.eflags &&& 0x3000#32) >>> 12
  let old := readEflags r
  let old := if iopl < 3#32 then
    ((old &&& 0x80000#32) >>> 10) ||| (old &&& ~~~0x3200#32) ||| 0x3000#32 else old
  let mask := stackMask (r.hflags &&& H_SS32 != 0#32)
  let sp ← pushAll acc 2 r.ss.base mask 0 [old, r.cs.sel.setWidth 32, r.eip] r.esp
  let v ← rd acc (BitVec.ofNat 32 (idx * 4)) 4 0
  let vec := BitVec.ofNat 32 v
  modR fun r =>
    let sel : BitVec 16 := (vec >>> 16).setWidth 16
    { r with
      esp := (r.esp &&& ~~~mask) ||| (sp &&& mask)
      cs := { r.cs with sel := sel, base := sel.setWidth 32 <<< 4 }
      eip := vec &&& 0xFFFF#32
      eflags := r.eflags &&& ~~~(if iopl = 3#32 then 0x80300#32 else 0x100#32)
      cr2 := if idx = 14 then cr2 else r.cr2
      dr7 := if idx = 1 then r.dr7 &&& ~~~0x2000#32 else r.dr7 }

/-- A null segment register with nothing cached, translate.cpp 811-814. -/
def nullSeg : SegReg := ⟨0#16, 0#32, 0#32, 0#32⟩

/-- translate.cpp 746-834: delivery from vm86 mode. -/
def fromVm86 (acc : Acc) (k : Kind) (idx : Nat) (code : BitVec 16) (cr2 : BitVec 32) (is32 : Bool)
    (eflags neip : BitVec 32) (sel : BitVec 16) (cd : BitVec 64) (dpl : Nat) : M Unit := do
  let r ← getR
  check (dpl != 0) (.exc GP (selErr sel + k.ext))
  let (nesp, nss, sd) ← newStack acc k.ext true dpl
  let mask := stackMask (dDB sd)
  let base := descBase sd
  let frame := [r.gs.sel.setWidth 32, r.fs.sel.setWidth 32, r.ds.sel.setWidth 32,
    r.es.sel.setWidth 32, r.ss.sel.setWidth 32, r.esp, readEflags r, r.cs.sel.setWidth 32, r.eip] ++
    (if hasCode k idx then [code.setWidth 32] else [])
  let sp ← pushAll acc (if is32 then 4 else 2) base mask 2 frame nesp
  modR fun r => { r with
    gs := nullSeg
    fs := nullSeg
    ds := nullSeg
    es := nullSeg
    cs := ⟨sel &&& 0xFFC#16, descBase cd, descLimit cd, descFlags cd⟩
    ss := ⟨nss, base, descLimit sd, descFlags sd⟩
    hflags := ((descFlags sd &&& HID_DB) >>> 19) |||
      ((((descFlags cd &&& HID_DB) >>> 20) ||| (r.hflags &&& ~~~(H_CS32 ||| H_CPL))) &&& ~~~H_SS32)
    eflags := eflags &&& ~~~0x34100#32
    esp := (r.esp &&& ~~~mask) ||| (sp &&& mask)
    eip := if is32 then neip else neip &&& 0xFFFF#32
    cr2 := if idx = 14 then cr2 else r.cr2
    dr7 := if idx = 1 then r.dr7 &&& ~~~0x2000#32 else r.dr7 }

/-- translate.cpp 898-938: the end of a delivery in protected mode. -/
def finish (idx : Nat) (cr2 mask eflags neip sp : BitVec 32) (sel : BitVec 16) (cd : BitVec 64)
    (dpl : BitVec 64) (r : Regs) : Regs :=
  { r with
    eflags := eflags &&& ~~~0x34100#32
    esp := (r.esp &&& ~~~mask) ||| (sp &&& mask)
    cs := ⟨(sel &&& 0xFFFC#16) ||| dpl.setWidth 16, descBase cd, descLimit cd, descFlags cd⟩
    hflags := (((descFlags cd &&& HID_DB) >>> 20) ||| dpl.setWidth 32 ||| isZero (descBase cd) (zeroMask .cs)) |||
      (r.hflags &&& ~~~(H_CS32 ||| H_CPL ||| zeroMask .cs))
    eip := neip
    cr2 := if idx = 14 then cr2 else r.cr2
    dr7 := if idx = 1 then r.dr7 &&& ~~~0x2000#32 else r.dr7 }

/-- translate.cpp 898-910: the new stack segment. -/
def switchSs (nss : BitVec 16) (sd : BitVec 64) (dpl : BitVec 64) (r : Regs) : Regs :=
  { r with
    ss := ⟨(nss &&& 0xFFFC#16) ||| dpl.setWidth 16, descBase sd, descLimit sd, descFlags sd⟩
    hflags := (((descFlags sd &&& HID_DB) >>> 19) ||| isZero (descBase sd) (zeroMask .ss)) |||
      (r.hflags &&& ~~~(H_SS32 ||| zeroMask .ss)) }

/-- translate.cpp 608-938: delivery through the protected mode IDT. -/
def deliverIdt (acc : Acc) (k : Kind) (idx : Nat) (code : BitVec 16) (cr2 : BitVec 32) : M Unit := do
  let r ← getR
  let gerr : BitVec 16 := BitVec.ofNat 16 (idx * 8 + 2)
  check (decide (r.idtLimit.toNat < idx * 8 + 7)) (.exc GP (gerr + k.ext))
  let dv ← rd acc (r.idtBase + BitVec.ofNat 32 (idx * 8)) 8 2
  let d := BitVec.ofNat 64 dv
  let ty := (d >>> 40 &&& 0x1F#64).toNat
  check (ty == 5) .abort
  check (!(ty == 6 || ty == 14 || ty == 7 || ty == 15)) (.exc GP (gerr + k.ext))
  let eflags := if ty = 6 ∨ ty = 14 then r.eflags &&& ~~~0x200#32 else r.eflags
  let neip : BitVec 32 :=
    (((d &&& 0xFFFF000000000000#64) >>> 32) ||| (d &&& 0xFFFF#64)).setWidth 32
  check (k.intn != 0 && decide (dDpl d < cpl r)) (.exc GP gerr)
  check (!dP d) (.exc NP (gerr + k.ext))
  let sel : BitVec 16 := ((d &&& 0xFFFF0000#64) >>> 16).setWidth 16
  check (isNull sel) (.exc GP k.ext)
  let (ca, cd) ← mapExc (fun i c => .exc i (c + k.ext)) (readDesc acc false sel)
  check (decide (cpl r < dDpl cd)) (.exc GP (selErr sel + k.ext))
  check (!dP cd) (.exc NP (selErr sel + k.ext))
  let dpl := if dConf cd then cpl r else dDpl cd
  setAccessed acc cd ca
  let is32 : Bool := decide (8 ≤ ty)
  let w := if is32 then 4 else 2
  let frame := [readEflags r, r.cs.sel.setWidth 32, r.eip] ++
    (if hasCode k idx then [code.setWidth 32] else [])
  if dpl < cpl r then
    if r.eflags &&& 0x20000#32 ≠ 0#32 then
      fromVm86 acc k idx code cr2 is32 eflags neip sel cd dpl.toNat
    else
      let (nesp, nss, sd) ← newStack acc k.ext false dpl.toNat
      let mask := stackMask (dDB sd)
      let sp ← pushAll acc w (descBase sd) mask 2 (r.ss.sel.setWidth 32 :: r.esp :: frame) nesp
      modR (switchSs nss sd dpl)
      modR (finish idx cr2 mask eflags neip sp sel cd dpl)
  else
    check (r.eflags &&& 0x20000#32 != 0#32) (.exc GP (selErr sel + k.ext))
    let mask := stackMask (r.hflags &&& H_SS32 != 0#32)
    let sp ← pushAll acc w r.ss.base mask 0 frame r.esp
    modR (finish idx cr2 mask eflags neip sp sel cd dpl)

/-- translate.cpp 941-961: delivery in real mode. -/
def deliverReal (acc : Acc) (idx : Nat) : M Unit := do
  let r ← getR
  check (decide (r.idtLimit.toNat < idx * 4 + 3)) (.exc GP (BitVec.ofNat 16 (idx * 8 + 2)))
  let v ← rd acc (r.idtBase + BitVec.ofNat 32 (idx * 4)) 4 0
  let vec := BitVec.ofNat 32 v
  let sp ← pushAll acc 2 r.ss.base 0xFFFF#32 0 [readEflags r, r.cs.sel.setWidth 32, r.eip] r.esp
  modR fun r =>
    let sel : BitVec 16 := (vec >>> 16).setWidth 16
    let base : BitVec 32 := sel.setWidth 32 <<< 4
    { r with
      eflags := r.eflags &&& ~~~0x50300#32
      esp := (r.esp &&& ~~~0xFFFF#32) ||| (sp &&& 0xFFFF#32)
      cs := { r.cs with sel := sel, base := base }
      eip := vec &&& 0xFFFF#32
      hflags := isZero base (zeroMask .cs) ||| (r.hflags &&& ~~~(zeroMask .cs))
      dr7 := if idx = 1 then r.dr7 &&& ~~~0x2000#32 else r.dr7 }

/-- translate.cpp 536-965: one activation of cpu_raise_exception after check_dbl_exp.  A stop with
`exc i c` is `exp_data = {c, i}; return cpu_raise_exception(cpu_ctx)`. -/
def deliver (acc : Acc) (k : Kind) (idx : Nat) (code : BitVec 16) (cr2 : BitVec 32) : M Unit := do
  let r ← getR
  if r.hflags &&& H_PE ≠ 0#32 then
    let vm := r.eflags &&& 0x20000#32 != 0#32
    let vme := r.hflags &&& 0x80000#32 != 0#32
    let iopl := (r.eflags &&& 0x3000#32) >>> 12
    check (k.intn == 2 && (vm && !vme) && decide (iopl < 3#32)) (.exc GP 0#16)
    if k.intn = 2 ∧ vm = true ∧ vme = true then
      let off ← rd acc (r.tr.base + 102#32) 2 0
      let b ← rd acc (r.tr.base + BitVec.ofNat 32 off - 32#32 + BitVec.ofNat 32 (idx / 8)) 1 0
      if BitVec.ofNat 32 b &&& (1#32 <<< (idx % 8)) = 0#32 then vmeRedirect acc idx cr2
      else
        check (iopl != 3#32) (.exc GP 0#16)
        deliverIdt acc k idx code cr2
    else deliverIdt acc k idx code cr2
  else deliverReal acc idx

/-- translate.cpp 501-503. -/
def contributory (i : Nat) : Bool := i == 0 || (10 ≤ i && i ≤ 13)

/-- Result of check_dbl_exp: the guest triple faulted, or the exception to deliver (vector and error
code) and the new old_exp. -/
inductive Dbl where
  | shutdown
  | go (idx : Nat) (code : BitVec 16) (old : Option Nat)
deriving DecidableEq

/-- translate.cpp 497-522, check_dbl_exp; `old` is exp_info.old_exp (`none` is EXP_INVALID). -/
def checkDbl (old : Option Nat) (idx : Nat) (code : BitVec 16) : Dbl :=
  let oc := match old with
    | some i => contributory i
    | none => false
  let cc := contributory idx
  if old = some 8 then .shutdown
  else
    let dbl := (oc && cc) || (old == some 14 && (cc || idx == 14))
    let code := if dbl then 0#16 else code
    let i := if dbl then 8 else idx
    .go i code (if cc || i == 14 || i == 8 then some i else old)

/-- Outcome of raising an exception: delivered, triple fault, emulator abort, or the fuel of the model
ran out (C40 proves it never does). -/
inductive Outcome where
  | done (s : Cpu)
  | shutdown (s : Cpu)
  | abort (s : Cpu)
  | outOfFuel

/-- translate.cpp 524-972 with its recursive calls, and the main loop's call of cpu_raise_exception
when the delivery page faulted (the new exception is then #PF; `pf` gives its error code and address,
computed by the mmu, C21).  Delivery resets old_exp (translate.cpp 819, 941), so the outcome `done`
stands for old_exp = EXP_INVALID. -/
def raise (acc : Acc) (pf : Cpu → BitVec 16 × BitVec 32) :
    Nat → Kind → Option Nat → Nat → BitVec 16 → BitVec 32 → Cpu → Outcome
  | 0, _, _, _, _, _, _ => .outOfFuel
  | fuel + 1, k, old, idx, code, cr2, s =>
    let dbl := if k.intn = 0 ∧ k.hw = false then checkDbl old idx code else .go idx code old
    match dbl with
    | .shutdown => .shutdown s
    | .go idx code old =>
      match deliver acc k idx code cr2 s with
      | .ok _ s => .done s
      | .stop (.exc i c) s => raise acc pf fuel .exn old i c cr2 s
      | .stop .fault s => raise acc pf fuel .exn old 14 (pf s).1 (pf s).2 s
      | .stop .abort s => .abort s

end Verif.Seg
