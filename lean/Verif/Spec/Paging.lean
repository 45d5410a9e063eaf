/-
Architectural rules of 32 bit paging (Intel SDM vol. 3, chapter "Paging", 32-bit paging), independent of the code.
-/
import Verif.Model.Paging

namespace Verif.Paging.Spec
open Verif.Paging

def pagingOn (c : Ctl) : Bool := c.cr0.getLsbD 31
def writeProtect (c : Ctl) : Bool := c.cr0.getLsbD 16
def bigPages (c : Ctl) : Bool := c.cr4.getLsbD 4
def globalPages (c : Ctl) : Bool := c.cr4.getLsbD 7

def present (e : Word) : Bool := e.getLsbD 0
def writable (e : Word) : Bool := e.getLsbD 1
def user (e : Word) : Bool := e.getLsbD 2
def accessed (e : Word) : Bool := e.getLsbD 5
def dirty (e : Word) : Bool := e.getLsbD 6
def large (e : Word) : Bool := e.getLsbD 7
def global (e : Word) : Bool := e.getLsbD 8

/-- The 32 bit little-endian word at `a`. -/
def word (m : Mem) (a : Addr) : Word := ((m (a + 3#32)).setWidth 32 <<< 24) ||| ((m (a + 2#32)).setWidth 32 <<< 16) ||| ((m (a + 1#32)).setWidth 32 <<< 8) ||| (m a).setWidth 32

/-- The address whose upper bits are `hi` and whose lower `n` bits are `lo`. -/
def glue {k : Nat} (n : Nat) (hi : BitVec k) (lo : BitVec n) : Addr := (hi.setWidth 32 <<< n) ||| lo.setWidth 32

/-- Where the page directory entry of `va` is: bits 31..12 of cr3, then bits 31..22 of the address, times four. -/
def pdeAt (c : Ctl) (va : Addr) : Addr := glue 12 (c.cr3.extractLsb' 12 20) ((va.extractLsb' 22 10).setWidth 12 <<< 2)

/-- Where the page table entry of `va` is. -/
def pteAt (pde : Word) (va : Addr) : Addr := glue 12 (pde.extractLsb' 12 20) ((va.extractLsb' 12 10).setWidth 12 <<< 2)

/-- A mapping of a virtual address: the frame, the rights combined over the levels, and the entries passed on the way. -/
structure Mapping where
  phys : Addr
  user : Bool
  writable : Bool
  global : Bool
  pdeAddr : Addr
  leafAddr : Addr      -- the entry that maps the page; equals pdeAddr for a 4 MiB page
  deriving DecidableEq, Repr

/-- The mapping of `va`, if all entries on the way are present. `fix` is the alias/a20 correction of a physical address. -/
def mapping (fix : Addr → Addr) (c : Ctl) (m : Mem) (va : Addr) : Option Mapping :=
  let pa := fix (pdeAt c va)
  let pde := word m pa
  if present pde then
    if large pde && bigPages c then
      some { phys := glue 22 (pde.extractLsb' 22 10) (va.extractLsb' 0 22), user := user pde, writable := writable pde, global := global pde,
             pdeAddr := pa, leafAddr := pa }
    else
      let ta := fix (pteAt pde va)
      let pte := word m ta
      if present pte then
        some { phys := glue 12 (pte.extractLsb' 12 20) (va.extractLsb' 0 12), user := user pde && user pte,
               writable := writable pde && writable pte, global := global pte, pdeAddr := pa, leafAddr := ta }
      else none
  else none

/-- Is the access made with user privilege? -/
def userAccess (c : Ctl) (isPriv : Bool) : Bool := c.cpl == 3#2 && !isPriv

/-- SDM 4.6: a user access needs a user page, and a writable one to write; a supervisor write needs a writable page if CR0.WP. -/
def allowed (wp : Bool) (mp : Mapping) (usr isWrite : Bool) : Bool :=
  (!usr || mp.user) && (!isWrite || mp.writable || (!usr && !wp))

/-- The effect of a granted access on memory: the accessed bit (5) of both entries is set, the dirty bit (6) of the entry that maps
the page is set by a write, and nothing else changes. -/
structure Marked (m : Mem) (mp : Mapping) (isWrite : Bool) (m' : Mem) : Prop where
  leaf : ∀ i, (word m' mp.leafAddr).getLsbD i = ((word m mp.leafAddr).getLsbD i || i == 5 || (i == 6 && isWrite))
  pde : mp.pdeAddr ≠ mp.leafAddr → ∀ i, (word m' mp.pdeAddr).getLsbD i = ((word m mp.pdeAddr).getLsbD i || i == 5)
  other : ∀ x, (∀ k : Addr, k.toNat < 4 → x ≠ mp.pdeAddr + k) → (∀ k : Addr, k.toNat < 4 → x ≠ mp.leafAddr + k) → m' x = m x

/-- The correction of a physical address keeps words aligned (aliases of page tables are aligned to 4 bytes). -/
def KeepsWords (fix : Addr → Addr) : Prop := ∀ a : Addr, a.toNat % 4 = 0 → (fix a).toNat % 4 = 0

end Verif.Paging.Spec
