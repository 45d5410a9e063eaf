/-
Model of the inline page table of the XBOX_CPU build: core/emitter/x64/linux/ipt.cpp (the fault handler 312-482, the flushes and
protections 209-272), the emitted accesses load_ipt and store_ipt (core/emitter/x64/jit.cpp 1892-1966, 2017-2086), the hooks in
tlb_fill, tlb_flush and tlb_invalidate (memory_management.cpp 72-75, 175-179, interface.cpp 1239-1242) and in the debug register
writes (instructions.cpp 1009-1013, 1039-1043).

Host memory seen by the emitted code is a set of host pages: the guard page, the pages of the three views of the ram file
(ram_alias, ram_contiguous, ram_tiled, mapped shared: the same bytes) and the pages of the rom files.  A page of a view is named by
its offset from the start of the view (a multiple of the page size, so the low bits of host_page_base are zero: mmap gives page
aligned views).  mprotect of a page is an update of `rw`.  Rom pages are always read-only (ipt.cpp 162-166).

Not modelled: the bytes ipt_backpatch writes (a patched access calls the memory handler, like one that crosses a page), failures
of mprotect, and the Windows version of the same code.
-/
import Verif.Model.Tlb
import Verif.Model.Watch
import Verif.Model.Block

namespace Verif.Ipt
open Verif.AS (Region MemType)
open Verif.Paging (Addr Word Query)
open Verif.Block (Cell)

/-- The three mappings of the ram file the emitted code goes through: ipt.cpp 97-107. -/
inductive View where
  | ram | contiguous | tiled
  deriving DecidableEq, Repr

/-- What an element of cpu_ctx.ipt points to. -/
inductive Page where
  | guard
  | ram (v : View) (off : Addr)
  | rom (ptr : Nat) (off : Addr)
  deriving DecidableEq, Repr

/-- cpu_ctx.ipt (by page number) and the protection of the pages of the views: true is PROT_READ | PROT_WRITE. -/
structure Table where
  tab : Addr → Page
  rw : View → Addr → Bool

/-- What the fault handler looks at: query_read_addr (false) and query_write_addr (true) with is_priv 0, cpu->smc by page number,
as_memory_search_addr, AS_RESOLVE_ALIAS with the address it gives (Model/Alias.lean), and the debug registers. -/
structure World where
  query : Bool → Addr → Query
  smc : Addr → Bool
  search : Addr → Region
  resolve : Region → Addr → Region × Addr
  dbg : Watch.Dbg

structure St where
  w : World
  t : Table

/-- page_info of a tlb hit, memory_management.cpp 447-455, 474-482. -/
def tlbInfo (e : Paging.Entry) : Word :=
  (1#64 ||| (e &&& 2#64) ||| ((e &&& 8#64) <<< 2) ||| (e &&& 4#64) ||| ((e &&& 8#64) <<< 1) ||| 0x20#64 ||| ((e &&& 0x200#64) <<< 3)).setWidth 32

/-- query_read_addr and query_write_addr with is_priv 0, memory_management.cpp 544-553, 589-600: the tlb, then the page tables; neither
is changed. -/
def queryAddr (b : Paging.Bus) (s : Paging.St) (wr : Bool) (addr : Addr) : Query :=
  match Paging.lookup Paging.dGeo s.dtlb (Paging.accessBit s.ctl wr false) addr with
  | some i =>
    let e := (s.dtlb (Paging.dGeo.set addr) i).entry
    .ok (Paging.hitAddr e addr) (tlbInfo e)
  | none => Paging.query b.fix s.ctl s.mem addr wr false

/-- ipt_flush(cpu), 258-262. -/
def flush (t : Table) : Table := { t with tab := fun _ => .guard }

/-- ipt_flush(cpu, virt_addr), 264-268. -/
def flushPage (t : Table) (a : Addr) : Table := { t with tab := fun p => if p = a >>> 12 then .guard else t.tab p }

/-- ipt_protect_debug_page, 251-256. -/
def protectDebug (t : Table) (lo hi : Addr) : Table := flushPage (flushPage t lo) hi

/-- The region behind a physical address and the address in it, with the alias followed: 386, 389, 470-475 and 219-233. -/
def locate (w : World) (phys : Addr) : Region × Addr :=
  if (w.search phys).type = .alias then w.resolve (w.search phys) phys else (w.search phys, phys)

/-- `(phys_addr - region->buff_off_start) & ~PAGE_MASK`, 433. -/
def pageOff (r : Region) (phys : Addr) : Addr := (phys - BitVec.ofNat 32 r.buffOff) &&& 0xFFFFF000#32

/-- 403-414: which view; CONTIGUOUS_START is 0x7FFFFFFF (internal.hpp 33).  The assert of the last case is not modelled. -/
def viewOf (r : Region) (phys : Addr) : View :=
  let size := r.stop - r.start + 1
  if phys.toNat ≤ size then .ram
  else if 0x7FFFFFFF ≤ phys.toNat ∧ phys.toNat ≤ 0x7FFFFFFF + size then .contiguous
  else .tiled

/-- ipt_protect_code_page, 209-249: all three views become read-only. -/
def protectCode (w : World) (t : Table) (phys : Addr) : Table :=
  let (r, p) := locate w phys
  if r.type = .ram then { t with rw := fun v o => if o = pageOff r p then false else t.rw v o } else t

/-- 365-383: a watchpoint touches the page of `addr`. -/
def watched (w : World) (addr : Addr) : Bool :=
  w.dbg.data.any (fun x =>
    decide (x.lo ≤ (addr &&& 0xFFFFF000#32) + 0xFFF#32) && decide (addr &&& 0xFFFFF000#32 ≤ x.hi))

/-- What the handler does about a host fault: deliver the guest's page fault, patch the access (and invalidate code at the address
given), or point the table at a page; `stop` is SIG_FATAL_ERR and `ub` a failed assertion. -/
inductive Act where
  | pf (addr : Addr) (code : BitVec 8)
  | patch (inv : Option Addr)
  | map (p : Page) (t : Table)
  | stop
  | ub
  -- no deriving: tables are functions

/-- 433-454: a page of ram. -/
def mapRam (w : World) (t : Table) (addr : Addr) (r : Region) (phys : Addr) (info : Word) : Act :=
  let v := viewOf r phys
  let off := pageOff r phys
  let ok := !(w.smc (phys >>> 12) || info &&& 2#32 == 0#32)
  .map (.ram v off)
    { tab := fun p => if p = addr >>> 12 then .ram v off else t.tab p
      rw := fun v' o => if v' = v ∧ o = off then ok else t.rw v' o }

/-- 433-434: a page of rom. -/
def mapRom (t : Table) (addr : Addr) (r : Region) (phys : Addr) : Act :=
  let off := pageOff r phys
  .map (.rom r.romPtr off) { t with tab := fun p => if p = addr >>> 12 then .rom r.romPtr off else t.tab p }

/-- 386-481, after the watchpoints; `code` is is_code. -/
def onPage (w : World) (t : Table) (wr : Bool) (addr phys : Addr) (info : Word) : Act :=
  let (r, p) := locate w phys
  match r.type with
  | .ram => if wr && w.smc (phys >>> 12) then .patch (some p) else mapRam w t addr r p info
  | .rom => if wr then .patch none else mapRom t addr r p
  | .mmio => .patch none
  | .unmapped => .patch none
  | .alias => .stop
  | .pmio => .stop

/-- ipt_segfault_sigaction, 312-482. -/
def onFault (w : World) (t : Table) (wr : Bool) (addr : Addr) : Act :=
  match w.query wr addr with
  | .fault a c => .pf a c
  | .ub => .ub
  | .ok phys info => if watched w addr then .patch none else onPage w t wr addr phys info

/-- The host page an emitted access may use as things stand (the host's own protection check). -/
def hostPage (t : Table) (wr : Bool) (addr : Addr) : Option Page :=
  match t.tab (addr >>> 12) with
  | .guard => none
  | .ram v off => if wr && !t.rw v off then none else some (.ram v off)
  | .rom p off => if wr then none else some (.rom p off)

/-- How an emitted access ends: through a host page, by the memory handler (a page crossing, or patched by this fault, with the code
invalidation of 402), with a guest page fault, by giving up, in an endless loop of host faults, or in undefined behaviour. -/
inductive Did where
  | direct (p : Page)
  | handler (inv : Option Addr)
  | pf (addr : Addr) (code : BitVec 8)
  | stop
  | hang
  | ub
  deriving DecidableEq, Repr

/-- jit.cpp 1943-1950, 2065-2072: LEA R10D, [EDX + size - 1]; XOR R10D, EDX; TEST R10D, ~PAGE_MASK. -/
def crosses (addr : Addr) (n : Nat) : Bool :=
  if n = 1 then false
  else ((addr + BitVec.ofNat 32 (n - 1)) ^^^ addr) &&& 0xFFFFF000#32 != 0#32

/-- load_ipt / store_ipt and the fault handler.  After the handler has set the table the faulting instruction runs again with RAX
at the new page; if the page does not allow the access the next fault finds everything as it is now, so this never ends. -/
def access (w : World) (t : Table) (wr : Bool) (addr : Addr) (n : Nat) : Table × Did :=
  if crosses addr n then (t, .handler none)
  else match hostPage t wr addr with
    | some p => (t, .direct p)
    | none =>
      match onFault w t wr addr with
      | .pf a c => (t, .pf a c)
      | .patch i => (t, .handler i)
      | .stop => (t, .stop)
      | .ub => (t, .ub)
      | .map _ t' =>
        match hostPage t' wr addr with
        | some p => (t', .direct p)
        | none => (t', .hang)

/-- The host byte `i` of an access through a page: MEMS(RAX, R11), R11 being the page offset. -/
def Page.cell (p : Page) (addr : Addr) (i : Nat) : Option Cell :=
  match p with
  | .guard => none
  | .ram _ off => some (.ram (off.toNat + (addr &&& 0xFFF#32).toNat + i))
  | .rom q off => some (.rom q (off.toNat + (addr &&& 0xFFF#32).toNat + i))

/-- instructions.cpp 1026-1045 for one register: the page is protected if the watchpoint is on data. -/
def guardDr (d : Watch.Dbg) (t : Table) (i : Nat) : Table :=
  if Watch.enabled d.dr7 i && Watch.type d.dr7 i != 2#32 && Watch.type d.dr7 i != 0#32 then
    protectDebug t (Watch.range d i).1 (Watch.range d i).2
  else t

/-- Everything that happens to the table or to what the handler looks at. -/
inductive Ev where
  /-- An access by emitted code that has not been patched. -/
  | access (wr : Bool) (addr : Addr) (n : Nat)
  /-- The page tables, the control registers or the contents of the tlb change. -/
  | tables (q : Bool → Addr → Query)
  /-- tlb_flush, memory_management.cpp 149-203. -/
  | flush
  /-- tlb_invalidate, interface.cpp 1214-1247. -/
  | invlpg (a : Addr)
  /-- Code is fetched from this physical address: through tlb_fill (memory_management.cpp 69-76) or with a hit in the tlb (606-609,
  621-624). -/
  | fetch (phys : Addr) (fill : Bool)
  /-- smc.reset of a page: translate.cpp 1102-1105. -/
  | forget (page : Addr)
  /-- MOV DR0-DR3, instructions.cpp 983-1019. -/
  | dr (i : Nat) (v : BitVec 32)
  /-- MOV DR7, or the client changes the debug registers and synchronises: instructions.cpp 1021-1046, interface.cpp 216-283. -/
  | dr7 (dr : Nat → BitVec 32) (v : BitVec 32)
  /-- The memory map changes: the tlb is flushed (see C56). -/
  | remap (search : Addr → Region) (resolve : Region → Addr → Region × Addr)

/-- instructions.cpp 1002-1015: the entry of the register in wp_data is moved and its new pages protected. -/
def guardMoved (d : Watch.Dbg) (t : Table) (i : Nat) : Table :=
  if d.data.any (fun x => x.idx == i) then guardDr d t i else t

def step (s : St) : Ev → St
  | .access wr a n => { s with t := (access s.w s.t wr a n).1 }
  | .tables q => { s with w := { s.w with query := q } }
  | .flush => { s with t := flush s.t }
  | .invlpg a => { s with t := flushPage s.t a }
  | .fetch phys fill =>
    { w := { s.w with smc := fun p => if p = phys >>> 12 then true else s.w.smc p }
      t := if fill then protectCode s.w s.t phys else s.t }
  | .forget page => { s with w := { s.w with smc := fun p => if p = page then false else s.w.smc p } }
  | .dr i v =>
    let d := Watch.writeDr s.w.dbg i v
    { w := { s.w with dbg := d }, t := guardMoved d s.t i }
  | .dr7 dr v =>
    let d := Watch.writeDr7 { s.w.dbg with dr := dr } v
    { w := { s.w with dbg := d }, t := [0, 1, 2, 3].foldl (guardDr d) s.t }
  | .remap f g => { w := { s.w with search := f, resolve := g }, t := flush s.t }

/-- ipt_ram_init, 58-124: every element points to the guard page, the views are readable and writable. -/
def fresh : Table := ⟨fun _ => .guard, fun _ _ => true⟩

def run (w : World) (es : List Ev) : St := es.foldl step ⟨w, fresh⟩

end Verif.Ipt
