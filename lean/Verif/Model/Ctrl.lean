import Verif.Model.Seg
/-
Control register writes (core/instructions.cpp 865-975) and cpu_sync_state (interface.cpp 215-284).
-/
namespace Verif.Seg

/-- What a control register write does to the TLBs: nothing, tlb_flush_l, tlb_flush_g_l. -/
inductive Flush where
  | none | locals | all
deriving DecidableEq

/-- Result of update_crN_helper: 1 (the jit raises #GP(0), jit.cpp 7939-7943), completed, or abort. -/
inductive CrRes where
  | gp
  | abort
  | ok (r : Regs) (f : Flush)

/-- The three users of update_crN_helper on CR0: jit.cpp 7933 MOV, 7684 LMSW, 5035 CLTS. -/
inductive CrKind where
  | mov | lmsw | clts

/-- instructions.cpp 893-921: the mode switch of MOV CR0 and LMSW.  (Breakpoints of the debugger, which
is not modelled, are removed there too.) -/
def switchPe (old new : BitVec 32) (cs ss : SegReg) (h : BitVec 32) : BitVec 32 :=
  if (old &&& 1#32) ≠ (new &&& 1#32) then
    if new &&& 1#32 ≠ 0#32 then
      let h := if cs.flags &&& HID_DB ≠ 0#32 then h ||| H_CS32 else h
      let h := if ss.flags &&& HID_DB ≠ 0#32 then h ||| H_SS32 else h
      h ||| (H_PE ||| (cs.sel.setWidth 32 &&& H_CPL))
    else h &&& ~~~(H_CPL ||| H_CS32 ||| H_SS32 ||| H_PE)
  else h

/-- instructions.cpp 869-937, case 0 of update_crN_helper. -/
def updateCr0 (k : CrKind) (r : Regs) (n : BitVec 32) : CrRes :=
  match k with
  | .mov =>
    if (n &&& 1#32 = 0#32 ∧ (n &&& 0x80000000#32) >>> 31 = 1#32) ∨
        (n &&& 0x40000000#32 = 0#32 ∧ (n &&& 0x20000000#32) >>> 29 = 1#32) then .gp
    else
      let f := if (r.cr0 &&& 0x80000000#32 ≠ n &&& 0x80000000#32) ∨
          (r.cr0 &&& 0x10000#32 ≠ n &&& 0x10000#32 ∧ n &&& 0x80000000#32 ≠ 0#32) then Flush.all
        else .none
      let h := ((n &&& 4#32) <<< 3) ||| (r.hflags &&& ~~~0x20#32)
      let h := ((n &&& 2#32) <<< 14) ||| (h &&& ~~~0x8000#32)
      let h := ((n &&& 0x20#32) <<< 2) ||| (h &&& ~~~0x80#32)
      let h := ((n &&& 8#32) <<< 7) ||| (h &&& ~~~0x400#32)
      .ok { r with
        hflags := switchPe r.cr0 n r.cs r.ss h
        cr0 := (n &&& 0xE005003F#32) ||| 0x10#32 } f
  | .lmsw =>
      let h := ((n &&& 4#32) <<< 3) ||| (r.hflags &&& ~~~0x20#32)
      let h := ((n &&& 2#32) <<< 14) ||| (h &&& ~~~0x8000#32)
      let h := ((n &&& 8#32) <<< 7) ||| (h &&& ~~~0x400#32)
      .ok { r with
        hflags := switchPe r.cr0 n r.cs r.ss h
        cr0 := ((r.cr0 &&& ~~~0xF#32) ||| (n &&& 0xF#32)) ||| 0x10#32 } .none
  | .clts =>
      .ok { r with
        hflags := ((n &&& 8#32) <<< 7) ||| (r.hflags &&& ~~~0x400#32)
        cr0 := r.cr0 &&& ~~~8#32 } .none

/-- instructions.cpp 939-950, case 3 of update_crN_helper. -/
def updateCr3 (r : Regs) (n : BitVec 32) : CrRes :=
  .ok { r with cr3 := n &&& 0xFFFFF018#32 }
    (if r.cr0 &&& 0x80000000#32 ≠ 0#32 then
      if r.cr4 &&& 0x80#32 ≠ 0#32 then .locals else .all
    else .none)

/-- instructions.cpp 952-970, case 4 of update_crN_helper. -/
def updateCr4 (r : Regs) (n : BitVec 32) : CrRes :=
  if n &&& 0xFFFFF800#32 ≠ 0#32 then .gp
  else if n &&& 0x20#32 ≠ 0#32 then .abort
  else
    .ok { r with
      hflags := ((n &&& 0x200#32) ||| ((n &&& 3#32) <<< 19) ||| ((n &&& 0x400#32) <<< 1)) |||
        (r.hflags &&& ~~~(0x200#32 ||| 0x800#32 ||| 0x80000#32 ||| 0x100000#32))
      cr4 := n }
      (if r.cr4 &&& 0x90#32 ≠ n &&& 0x90#32 then .all else .none)

/-- jit.cpp 7932-7957: MOV to CR0, CR2 (7950), CR3, CR4 with CPL 0; other CPLs raise #GP(0). -/
def movToCr (r : Regs) (i : Fin 5) (n : BitVec 32) : CrRes :=
  if r.hflags &&& H_CPL ≠ 0#32 then .gp
  else match i with
    | 0 => updateCr0 .mov r n
    | 2 => .ok { r with cr2 := n } .none
    | 3 => updateCr3 r n
    | 4 => updateCr4 r n
    | _ => .abort

/-- jit.cpp 7890-7899: MOV from CRn with CPL 0 stores the register. -/
def movFromCr (r : Regs) (i : Fin 5) : BitVec 32 :=
  match i with
  | 0 => r.cr0
  | 2 => r.cr2
  | 3 => r.cr3
  | _ => r.cr4

/-- jit.cpp 7664-7691: LMSW ORs PE into its operand when already in protected mode. -/
def lmswOperand (r : Regs) (v : BitVec 16) : BitVec 32 :=
  (if r.hflags &&& H_PE ≠ 0#32 then v ||| 1#16 else v).setWidth 32

/-- jit.cpp 5026-5043 and 7664-7691. -/
def lmsw (r : Regs) (v : BitVec 16) : CrRes :=
  if r.hflags &&& H_CPL ≠ 0#32 then .gp else updateCr0 .lmsw r (lmswOperand r v)

/-- jit.cpp 5026-5043. -/
def clts (r : Regs) : CrRes :=
  if r.hflags &&& H_CPL ≠ 0#32 then .gp else updateCr0 .clts r 0#32

/-- `if (c) hflags |= m`. -/
def orIf (c : Prop) [Decidable c] (m h : BitVec 32) : BitVec 32 := if c then h ||| m else h

/-- interface.cpp 229-283: the hflags cpu_sync_state computes; the code also recomputes the
watchpoints from DR7, and flushes TLBs and code cache when PE disagrees (218-226). -/
def syncHflags (r : Regs) : BitVec 32 :=
  let h := r.cs.sel.setWidth 32 &&& H_CPL
  let h := orIf (r.cs.flags &&& HID_DB ≠ 0#32) H_CS32 h
  let h := orIf (r.ss.flags &&& HID_DB ≠ 0#32) H_SS32 h
  let h := orIf (r.cs.base = 0#32) (zeroMask .cs) h
  let h := orIf (r.ds.base = 0#32) (zeroMask .ds) h
  let h := orIf (r.ss.base = 0#32) (zeroMask .ss) h
  let h := orIf (r.es.base = 0#32) (zeroMask .es) h
  let h := orIf (r.fs.base = 0#32) (zeroMask .fs) h
  let h := orIf (r.gs.base = 0#32) (zeroMask .gs) h
  let h := orIf (r.cr0 &&& 1#32 ≠ 0#32) H_PE h
  let h := orIf (r.cr0 &&& 4#32 ≠ 0#32) 0x20#32 h
  let h := orIf (r.cr0 &&& 8#32 ≠ 0#32) 0x400#32 h
  let h := orIf (r.cr0 &&& 0x20#32 ≠ 0#32) 0x80#32 h
  let h := orIf (r.cr0 &&& 2#32 ≠ 0#32) 0x8000#32 h
  let h := orIf (r.cr4 &&& 0x200#32 ≠ 0#32) 0x200#32 h
  let h := orIf (r.cr4 &&& 1#32 ≠ 0#32) 0x80000#32 h
  let h := orIf (r.cr4 &&& 2#32 ≠ 0#32) 0x100000#32 h
  orIf (r.cr4 &&& 0x400#32 ≠ 0#32) 0x800#32 h

/-- interface.cpp 215-284, cpu_sync_state. -/
def syncState (r : Regs) : Regs := { r with hflags := syncHflags r }

end Verif.Seg
