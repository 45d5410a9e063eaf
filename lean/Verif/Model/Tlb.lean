/-
Model of the TLBs: tlb_fill (core/memory_management.cpp 60-147), tlb_flush (149-203), the lookups tlb_get_read/write/code_addr
(436-510), the translation functions get_read_addr .. get_code_addr (516-622), the hit tests of mem_read_helper and
mem_write_helper (696-717, 762-781) and tlb_invalidate (interface.cpp 1214-1247).

An entry is the 64 bit word of tlb_t; the region pointer of tlb_t is the region it points to (map changes flush the TLB, see
C56).  `bus.search` is as_memory_search_addr, `bus.locate` the same followed by correct_phys_addr.  The line chosen at random when
a set is full is the argument `victim`.  A TLB is a function from set and line to lines; the arrays have the sizes of `Geo`.
Not modelled: the XBOX ipt, and the unlinking of translated code (Model/Tc.lean).
-/
import Verif.Model.Paging
import Verif.Model.Alias

namespace Verif.Paging
open Verif.AS (Region MemType)

abbrev Entry := BitVec 64

structure Line where
  entry : Entry
  region : Option Region
  deriving DecidableEq, Repr

/-- memset 0 / `entry = 0; region = nullptr`. -/
def Line.zero : Line := ⟨0#64, none⟩

abbrev Tlb := Addr → Nat → Line

structure Bus where
  search : Addr → Region
  locate : Addr → Region × Addr

/-- correct_phys_addr as the page walk uses it. -/
def Bus.fix (b : Bus) (a : Addr) : Addr := (b.locate a).2

/-- Geometry of a TLB: internal.hpp 296-303, lib86cpu_priv.hpp 38-42. -/
structure Geo where
  idxMask : Addr
  tagMask : Entry
  shift : Nat
  lines : Nat

def dGeo : Geo := ⟨0x7FF#32, 0x1FF00000000#64, 9, 4⟩
def iGeo : Geo := ⟨0x1FF#32, 0x7FF00000000#64, 11, 8⟩

/-- `(addr >> PAGE_SHIFT) & IDX_MASK`. -/
def Geo.set (g : Geo) (a : Addr) : Addr := (a >>> 12) &&& g.idxMask
/-- `(uint64_t(addr) << TAG_SHIFT64) & TAG_MASK64`. -/
def Geo.tag (g : Geo) (a : Addr) : Entry := (a.setWidth 64 <<< g.shift) &&& g.tagMask

def pageBase (a : Addr) : Addr := a &&& 0xFFFFF000#32

structure St where
  ctl : Ctl
  mem : Mem
  dtlb : Tlb
  itlb : Tlb
  smc : Addr → Bool    -- std::bitset over page numbers

/-- 77-103: the flags of an entry by the region behind it. -/
def kindBits (r : Region) (phys : Addr) : Entry :=
  if r.start ≤ (pageBase phys).toNat ∧ (pageBase phys ||| 0xFFF#32).toNat ≤ r.stop then
    match r.type with
    | .ram => 0x20#64
    | .unmapped => 0#64
    | .mmio => 0x80#64
    | _ => 0x40#64
  else 0x800#64

/-- 66-76, 94-96: updates of smc; `prot` still carries MMU_SET_CODE (bit 4). -/
def smcAfter (smc : Addr → Bool) (r : Region) (phys : Addr) (prot : Word) : Addr → Bool :=
  let smc := if prot &&& 16#32 ≠ 0#32 then (fun p => if p = phys >>> 12 then true else smc p) else smc
  if kindBits r phys = 0x40#64 then (fun p => if p = phys >>> 12 then false else smc p) else smc

/-- The entry built by tlb_fill: `(phys & ~PAGE_MASK) | prot (without MMU_SET_CODE) | kind | tag`. -/
def mkEntry (g : Geo) (addr phys : Addr) (r : Region) (prot : Word) : Entry :=
  ((pageBase phys).setWidth 64 ||| ((prot &&& ~~~ 16#32).setWidth 64 ||| kindBits r phys)) ||| g.tag addr

/-- 109-121, 127-139: the first line that holds the same entry with the other dirty flag or is free, else a random one. -/
def pickLine (g : Geo) (t : Nat → Line) (e : Entry) (victim : Nat) : Nat :=
  ((List.range g.lines).find? (fun i => decide ((t i).entry ^^^ e = 0x200#64 ∨ (t i).entry &&& 0xF#64 = 0#64))).getD victim

def Tlb.put (t : Tlb) (s : Addr) (i : Nat) (l : Line) : Tlb := fun s' i' => if s' = s ∧ i' = i then l else t s' i'

/-- tlb_fill on one TLB. -/
def fillTlb (g : Geo) (t : Tlb) (addr phys : Addr) (r : Region) (prot : Word) (victim : Nat) : Tlb :=
  let e := mkEntry g addr phys r prot
  t.put (g.set addr) (pickLine g (t (g.set addr)) e victim) ⟨e, some r⟩

/-- tlb_fill, 60-147. -/
def fill (b : Bus) (s : St) (isFetch : Bool) (addr phys : Addr) (prot : Word) (victim : Nat) : St × Addr :=
  let (r, p) := b.locate phys
  let s := { s with smc := smcAfter s.smc r p prot }
  if isFetch then ({ s with itlb := fillTlb iGeo s.itlb addr p r prot victim }, p)
  else ({ s with dtlb := fillTlb dGeo s.dtlb addr p r prot victim }, p)

inductive Tr where
  | fault (addr : Addr) (code : BitVec 8)
  | ok (phys : Addr)
  | ub
  deriving DecidableEq, Repr

/-- mmu_translate_addr with should_fill_tlb. -/
def translate (b : Bus) (s : St) (isFetch : Bool) (addr : Addr) (wr pr sc : Bool) (victim : Nat) : St × Tr :=
  match walk b.fix s.ctl s.mem addr wr pr sc with
  | (.fault a c, m) => ({ s with mem := m }, .fault a c)
  | (.ub, m) => ({ s with mem := m }, .ub)
  | (.ok phys prot, m) => let (s, p) := fill b { s with mem := m } isFetch addr phys prot victim; (s, .ok p)

/-- tlb_access[is_write][CPL >> is_priv], memory_management.hpp 46-49. -/
def accessBit (c : Ctl) (wr pr : Bool) : Entry :=
  let lv := c.cpl.toNat >>> (if pr then 2 else 0)
  if wr then (if lv = 3 then 8#64 else 2#64) else (if lv = 3 then 4#64 else 1#64)

/-- `((entry & (mem_access | TAG_MASK64)) ^ (tag | mem_access)) == 0`. -/
def matches' (g : Geo) (access : Entry) (addr : Addr) (e : Entry) : Bool :=
  (e &&& (access ||| g.tagMask)) ^^^ (g.tag addr ||| access) == 0#64

/-- The line that hits. -/
def lookup (g : Geo) (t : Tlb) (access : Entry) (addr : Addr) : Option Nat :=
  (List.range g.lines).find? (fun i => matches' g access addr (t (g.set addr) i).entry)

/-- `(entry & ~PAGE_MASK) | (addr & PAGE_MASK)` as addr_t. -/
def hitAddr (e : Entry) (addr : Addr) : Addr := pageBase (e.setWidth 32) ||| (addr &&& 0xFFF#32)

/-- get_read_addr, 524-533 (tlb_get_read_addr 436-460). -/
def getRead (b : Bus) (s : St) (addr : Addr) (pr : Bool) (victim : Nat) : St × Tr :=
  match lookup dGeo s.dtlb (accessBit s.ctl false pr) addr with
  | some i => (s, .ok (hitAddr (s.dtlb (dGeo.set addr) i).entry addr))
  | none => translate b s false addr false pr false victim

/-- get_write_addr, 566-577 (tlb_get_write_addr 462-494): a hit sets TLB_DIRTY. -/
def getWrite (b : Bus) (s : St) (addr : Addr) (pr : Bool) (victim : Nat) : St × Tr :=
  match lookup dGeo s.dtlb (accessBit s.ctl true pr) addr with
  | some i =>
    let l := s.dtlb (dGeo.set addr) i
    ({ s with dtlb := s.dtlb.put (dGeo.set addr) i { l with entry := l.entry ||| 0x200#64 } }, .ok (hitAddr l.entry addr))
  | none => translate b s false addr true pr false victim

/-- get_code_addr<set_smc>, 598-628 (tlb_get_code_addr 496-510). -/
def getCode (b : Bus) (s : St) (addr : Addr) (setSmc : Bool) (victim : Nat) : St × Tr :=
  match lookup iGeo s.itlb (accessBit s.ctl false false) addr with
  | some i =>
    let p := hitAddr (s.itlb (iGeo.set addr) i).entry addr
    ({ s with smc := if setSmc then (fun q => if q = p >>> 12 then true else s.smc q) else s.smc }, .ok p)
  | none => translate b s true addr false false setSmc victim

/-- The hit test of mem_read_helper (698-712) and mem_write_helper (768-782) for an access of `n` bytes; for writes the dirty flag
is part of `mem_access`. -/
def helperMatches (access : Entry) (n : Nat) (addr : Addr) (e : Entry) : Bool :=
  ((e &&& (access ||| dGeo.tagMask)) ||| (pageBase addr).setWidth 64) ^^^
    ((dGeo.tag addr ||| (pageBase (addr + BitVec.ofNat 32 n - 1#32)).setWidth 64) ||| access) == 0#64

/-- The line mem_read_helper / mem_write_helper takes. -/
def helperLookup (s : St) (n : Nat) (addr : Addr) (wr pr : Bool) : Option Nat :=
  (List.range dGeo.lines).find?
    (fun i => helperMatches (if wr then accessBit s.ctl true pr ||| 0x200#64 else accessBit s.ctl false pr) n addr (s.dtlb (dGeo.set addr) i).entry)

/-- tlb_flush<true, _>, 152-155. -/
def flushAll (s : St) : St := { s with dtlb := fun _ _ => Line.zero, itlb := fun _ _ => Line.zero }

def keepGlobal (l : Line) : Line := if l.entry &&& 0x100#64 = 0#64 then Line.zero else l

/-- tlb_flush<false, _>, 156-173. -/
def flushLocal (s : St) : St := { s with dtlb := fun x i => keepGlobal (s.dtlb x i), itlb := fun x i => keepGlobal (s.itlb x i) }

/-- One loop of tlb_invalidate, interface.cpp 1220-1239: clears the first line that matches and stops. -/
def invalidateTlb (g : Geo) (t : Tlb) (addr : Addr) : Tlb :=
  match (List.range g.lines).find? (fun i => matches' g 1#64 addr (t (g.set addr) i).entry) with
  | some i => t.put (g.set addr) i Line.zero
  | none => t

/-- tlb_invalidate, interface.cpp 1214-1247 (also INVLPG, instructions.cpp 1519-1524). -/
def invalidate (s : St) (addr : Addr) : St :=
  { s with dtlb := invalidateTlb dGeo s.dtlb addr, itlb := invalidateTlb iGeo s.itlb addr }

end Verif.Paging
