import Verif.Model.Seg
/-
Descriptors and selectors (Intel SDM vol. 3, 3.4.2 and 3.4.5), by bit positions.
-/
namespace Verif.Seg.Spec
open Guest (load)

/-- Base address: bits 16-39 and 56-63. -/
def base (d : BitVec 64) : BitVec 32 := d.extractLsb' 56 8 ++ d.extractLsb' 16 24
/-- The 20 bit limit: bits 0-15 and 48-51. -/
def rawLimit (d : BitVec 64) : BitVec 20 := d.extractLsb' 48 4 ++ d.extractLsb' 0 16
/-- Last valid offset: in units of 4 KiB pages if G (bit 55) is set. -/
def limit (d : BitVec 64) : Nat :=
  if d[55] then (rawLimit d).toNat * 4096 + 4095 else (rawLimit d).toNat
/-- Access rights: the upper half of the descriptor. -/
def rights (d : BitVec 64) : BitVec 32 := d.extractLsb' 32 32

/-- Privilege level of a descriptor, bits 45-46. -/
def dpl (d : BitVec 64) : BitVec 2 := d.extractLsb' 45 2
/-- A code or data segment. -/
def isSeg (d : BitVec 64) : Bool := d[44]
/-- Of a segment: executable. -/
def isCode (d : BitVec 64) : Bool := d[43]
/-- Of a code segment: conforming. -/
def conforming (d : BitVec 64) : Bool := d[42]
/-- Of a code segment: readable; of a data segment: writable. -/
def rw (d : BitVec 64) : Bool := d[41]
/-- Present. -/
def present (d : BitVec 64) : Bool := d[47]

/-- Requested privilege level of a selector. -/
def rpl (sel : BitVec 16) : BitVec 2 := sel.setWidth 2
/-- A selector of descriptor 0 of the GDT. -/
def nullSel (sel : BitVec 16) : Prop := sel.toNat < 4
/-- Base of the table a selector refers to (bit 2: LDT). -/
def tableBase (r : Regs) (sel : BitVec 16) : BitVec 32 := if sel[2] then r.ldtr.base else r.gdtBase
/-- Limit of the table a selector refers to. -/
def tableLimit (r : Regs) (sel : BitVec 16) : BitVec 32 := if sel[2] then r.ldtr.limit else r.gdtLimit
/-- The whole descriptor lies within the limit of its table. -/
def InTable (r : Regs) (sel : BitVec 16) : Prop := sel.toNat / 8 * 8 + 7 ≤ (tableLimit r sel).toNat
/-- Linear address of a descriptor. -/
def descAddr (r : Regs) (sel : BitVec 16) : BitVec 32 :=
  tableBase r sel + BitVec.ofNat 32 (sel.toNat / 8 * 8)
/-- The descriptor a selector refers to. -/
def descAt (s : Cpu) (sel : BitVec 16) : BitVec 64 := BitVec.ofNat 64 (load s.mem (descAddr s.r sel) 8)
/-- The error code of a selector: the selector with the RPL cleared. -/
def errOf (sel : BitVec 16) : BitVec 16 := BitVec.ofNat 16 (sel.toNat / 4 * 4)
/-- The table does not cross the end of the 32 bit linear address space. -/
def TableFits (r : Regs) (sel : BitVec 16) : Prop :=
  (tableBase r sel).toNat + 0xFFFF < 2 ^ 32 ∧ (tableBase r sel).toNat + (tableLimit r sel).toNat < 2 ^ 32

/-- The descriptor and selector of a stack segment usable at level `l`: a writable data segment with
RPL = DPL = `l`. -/
def StackSeg (sel : BitVec 16) (d : BitVec 64) (l : BitVec 2) : Prop :=
  isSeg d = true ∧ isCode d = false ∧ rw d = true ∧ dpl d = l ∧ rpl sel = l
/-- A segment data can be read from: a data segment or readable code. -/
def Readable (d : BitVec 64) : Prop := isSeg d = true ∧ (isCode d = true → rw d = true)
/-- The privilege needed to load a data segment: conforming code, or RPL and CPL at most the DPL. -/
def DataPriv (sel : BitVec 16) (d : BitVec 64) (l : BitVec 2) : Prop :=
  (isCode d = true ∧ conforming d = true) ∨ (rpl sel ≤ dpl d ∧ l ≤ dpl d)

/-- A selector with its RPL replaced. -/
def withRpl (sel : BitVec 16) (l : BitVec 2) : BitVec 16 := BitVec.ofNat 16 (sel.toNat / 4 * 4 + l.toNat)
/-- A call gate, 16 or 32 bit: a system descriptor of type 4 or 12. -/
def isGate (d : BitVec 64) : Prop := isSeg d = false ∧ (d.extractLsb' 40 4 = 4#4 ∨ d.extractLsb' 40 4 = 12#4)
/-- Code selector of a gate: bits 16-31. -/
def gateSel (d : BitVec 64) : BitVec 16 := d.extractLsb' 16 16
/-- Offset of a gate: bits 0-15 and 48-63. -/
def gateOff (d : BitVec 64) : BitVec 32 := d.extractLsb' 48 16 ++ d.extractLsb' 0 16

/-- A segment register holds a selector and the fields of a descriptor. -/
structure Holds (g : SegReg) (sel : BitVec 16) (d : BitVec 64) : Prop where
  sel : g.sel = sel
  base : g.base = base d
  limit : g.limit.toNat = limit d
  rights : g.flags = rights d

/-- The access rights of a segment register whose contents must not be usable at level `l`: a data
segment or non-conforming code with a DPL (bits 13-14) below `l`. -/
def TooPrivileged (rights : BitVec 32) (l : BitVec 2) : Prop :=
  rights[12] = true ∧ (rights[11] = false ∨ rights[10] = false) ∧ rights.extractLsb' 13 2 < l

end Verif.Seg.Spec
