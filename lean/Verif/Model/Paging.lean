/-
Model of the page walk: core/memory_management.cpp check_page_access (206-259), check_page_privilege (261-279),
tlb_gen_access_mask (17-38) and mmu_translate_addr (305-410), without the filling of the TLB (Model/Tlb.lean).

Physical memory is a function from physical addresses to bytes and `fix` is what correct_phys_addr (40-58) does to a
physical address (aliases and the a20 gate; modelled in Model/Alias.lean).  Simplification: the paging structures live in
ram, so as_memory_dispatch_read/write<uint32_t> are four bytes at the corrected address.
A failed assert (an entry -1 of a table) and an index outside a table are the outcome `ub`.
-/
namespace Verif.Paging

abbrev Byte := BitVec 8
abbrev Addr := BitVec 32
abbrev Word := BitVec 32
abbrev Mem := Addr → Byte

/-- The registers the walk looks at: regs.cr0, regs.cr3, regs.cr4 and hflags & HFLG_CPL. -/
structure Ctl where
  cr0 : Word
  cr3 : Word
  cr4 : Word
  cpl : BitVec 2
  deriving DecidableEq, Repr

/-- ram_read<uint32_t>, memory_management.hpp 245-250 (the host is little endian). -/
def rd32 (m : Mem) (a : Addr) : Word := ((m (a + 3#32)).setWidth 32 <<< 24) ||| ((m (a + 2#32)).setWidth 32 <<< 16) ||| ((m (a + 1#32)).setWidth 32 <<< 8) ||| (m a).setWidth 32

/-- ram_write<uint32_t>, memory_management.hpp 252-256. -/
def wr32 (m : Mem) (a : Addr) (v : Word) : Mem := fun x =>
  if x = a then v.extractLsb' 0 8
  else if x = a + 1#32 then v.extractLsb' 8 8
  else if x = a + 2#32 then v.extractLsb' 16 8
  else if x = a + 3#32 then v.extractLsb' 24 8
  else m x

/-- One row of a table: -1 is an assertion failure. -/
def row (l : List Int) (i : Nat) : Option Int :=
  match l[i]? with
  | none => none
  | some (-1) => none
  | some x => some x

/-- check_page_access, 206-259.  `wp` is `(cr0 & CR0_WP_MASK) >> 16`. -/
def checkPageAccess (cr0 : Word) (accessLevel memAccess : Nat) : Option Int :=
  let wp := cr0 &&& 0x10000#32 ≠ 0#32
  match accessLevel with
  | 0 => if wp then row [1, -1, 0, -1, 0, -1, 0] memAccess else row [1, -1, 1, -1, 0, -1, 0] memAccess
  | 2 => row [1, -1, 1, -1, 0, -1, 0] memAccess
  | 4 => if wp then row [1, -1, 0, -1, 1, -1, 0] memAccess else row [1, -1, 1, -1, 1, -1, 0] memAccess
  | 6 => row [1, -1, 1, -1, 1, -1, 1] memAccess
  | _ => none

/-- check_page_privilege, 261-279. -/
def checkPagePrivilege (pdePriv ptePriv : Nat) : Option Int :=
  match [[0, -1, 2, -1, 0, -1, 2],
         [-1, -1, -1, -1, -1, -1, -1],
         [2, -1, 2, -1, 2, -1, 2],
         [-1, -1, -1, -1, -1, -1, -1],
         [0, -1, 2, -1, 4, -1, 4],
         [-1, -1, -1, -1, -1, -1, -1],
         [2, -1, 2, -1, 4, -1, 6]][pdePriv]? with
  | none => none
  | some l => row l ptePriv

/-- tlb_gen_access_mask, 17-38; `none` is LIB86CPU_ABORT. -/
def genAccessMask (cr0 : Word) (user : Nat) (isWrite : Bool) : Option Word :=
  let wp := cr0 &&& 0x10000#32 ≠ 0#32
  match user with
  | 0 => some (if isWrite then 1#32 ||| 2#32 else if wp then 1#32 else 1#32 ||| 2#32)
  | 4 => some (if isWrite then 1#32 ||| 2#32 ||| 4#32 ||| 8#32 else if wp then 1#32 ||| 4#32 else 1#32 ||| 2#32 ||| 4#32)
  | _ => none

/-- Outcome of mmu_translate_addr before the TLB is filled: the #PF of mmu_raise_page_fault (281-303) with its fault address and
error code, or the (uncorrected) physical address and the protection bits handed to tlb_fill. -/
inductive Walk where
  | fault (addr : Addr) (code : BitVec 8)
  | ok (phys : Addr) (prot : Word)
  | ub
  deriving DecidableEq, Repr

def b2n (b : Bool) : Nat := if b then 1 else 0

/-- `(entry & PTE_WRITE) | (entry & PTE_USER)`. -/
def privOf (e : Word) : Nat := ((e &&& 2#32) ||| (e &&& 4#32)).toNat

/-- `cpu_lv`, line 325. -/
def cpuLv (c : Ctl) : Nat := if c.cpl ≠ 3#2 then 0 else 4

/-- `mem_access`, line 336: `(is_write << 1) | ((cpu_lv >> is_priv) & 4)`, with is_priv 0 or 2. -/
def memAccess (c : Ctl) (isWrite isPriv : Bool) : Nat :=
  (b2n isWrite <<< 1) ||| ((cpuLv c >>> (if isPriv then 2 else 0)) &&& 4)

/-- The error codes of lines 332, 361, 372, 406: `p | (is_write << 1) | cpu_lv`. -/
def errCode (c : Ctl) (present isWrite : Bool) : BitVec 8 :=
  BitVec.ofNat 8 (b2n present ||| (b2n isWrite <<< 1) ||| cpuLv c)

/-- `(is_write << 9) | set_code | ((entry & PTE_GLOBAL) & ((cr4 & CR4_PGE_MASK) << 1))`. -/
def protTail (c : Ctl) (e : Word) (isWrite setCode : Bool) : Word :=
  (if isWrite then 0x200#32 else 0#32) ||| (if setCode then 16#32 else 0#32) |||
    ((e &&& 0x100#32) &&& ((c.cr4 &&& 0x80#32) <<< 1))

/-- Lines 340-345 / 384-390: `if (!(e & PTE_ACCESSED) || is_write) { e |= PTE_ACCESSED; if (is_write) e |= PTE_DIRTY; write }`. -/
def touch (m : Mem) (a : Addr) (e : Word) (isWrite : Bool) : Mem :=
  if e &&& 0x20#32 = 0#32 ∨ isWrite then
    wr32 m a (if isWrite then (e ||| 0x20#32) ||| 0x40#32 else e ||| 0x20#32)
  else m

/-- Lines 378-383: the pde of a page table gets its accessed bit. -/
def touchPde (m : Mem) (a : Addr) (e : Word) : Mem :=
  if e &&& 0x20#32 = 0#32 then wr32 m a (e ||| 0x20#32) else m

/-- mmu_translate_addr with should_fill_tlb = true, 305-410. -/
def walk (fix : Addr → Addr) (c : Ctl) (m : Mem) (addr : Addr) (isWrite isPriv setCode : Bool) : Walk × Mem :=
  if c.cr0 &&& 0x80000000#32 = 0#32 then
    (.ok addr (1#32 ||| 2#32 ||| 4#32 ||| 8#32 ||| 0x200#32 ||| (if setCode then 16#32 else 0#32)), m)
  else
    let pdeAddr := fix ((c.cr3 &&& 0xFFFFF000#32) ||| (addr >>> 22) * 4#32)
    let pde := rd32 m pdeAddr
    if pde &&& 1#32 = 0#32 then (.fault addr (errCode c false isWrite), m)
    else
      let access := memAccess c isWrite isPriv
      let pdePriv := privOf pde
      if pde &&& 0x80#32 ≠ 0#32 ∧ c.cr4 &&& 0x10#32 ≠ 0#32 then
        match checkPageAccess c.cr0 pdePriv access with
        | none => (.ub, m)
        | some 0 => (.fault addr (errCode c true isWrite), m)
        | some _ =>
          match genAccessMask c.cr0 (pdePriv &&& 4) (pdePriv &&& 2 != 0) with
          | none => (.ub, m)
          | some mask =>
            (.ok ((pde &&& 0xFFC00000#32) ||| (addr &&& 0x3FFFFF#32)) (mask ||| protTail c pde isWrite setCode),
              touch m pdeAddr pde isWrite)
      else
        let pteAddr := fix ((pde &&& 0xFFFFF000#32) ||| ((addr >>> 12) &&& 0x3FF#32) * 4#32)
        let pte := rd32 m pteAddr
        if pte &&& 1#32 = 0#32 then (.fault addr (errCode c false isWrite), m)
        else
          match checkPagePrivilege pdePriv (privOf pte) with
          | none => (.ub, m)
          | some lv =>
            match checkPageAccess c.cr0 lv.toNat access with
            | none => (.ub, m)
            | some 0 => (.fault addr (errCode c true isWrite), m)
            | some _ =>
              match genAccessMask c.cr0 (lv.toNat &&& 4) (lv.toNat &&& 2 != 0) with
              | none => (.ub, m)
              | some mask =>
                (.ok ((pte &&& 0xFFFFF000#32) ||| (addr &&& 0xFFF#32)) (mask ||| protTail c pte isWrite setCode),
                  touch (touchPde m pdeAddr pde) pteAddr pte isWrite)

/-- mmu_translate_addr with should_fill_tlb = false (the query used by the api to ask about a page), 305-410: the same decisions,
no memory write, and `page_info`. -/
inductive Query where
  | fault (addr : Addr) (code : BitVec 8)
  | ok (phys : Addr) (info : Word)
  | ub
  deriving DecidableEq, Repr

/-- Lines 350-356, 396-401. -/
def pageInfo (e : Word) : Word := 1#32 ||| (e &&& 2#32) ||| (e &&& 4#32) ||| (e &&& 0x20#32) ||| (e &&& 0x40#32)

def query (fix : Addr → Addr) (c : Ctl) (m : Mem) (addr : Addr) (isWrite isPriv : Bool) : Query :=
  if c.cr0 &&& 0x80000000#32 = 0#32 then .ok (fix addr) (1#32 ||| 2#32 ||| 4#32 ||| 0x20#32 ||| 0x40#32)
  else
    let pde := rd32 m (fix ((c.cr3 &&& 0xFFFFF000#32) ||| (addr >>> 22) * 4#32))
    if pde &&& 1#32 = 0#32 then .fault addr (errCode c false isWrite)
    else
      let access := memAccess c isWrite isPriv
      let pdePriv := privOf pde
      if pde &&& 0x80#32 ≠ 0#32 ∧ c.cr4 &&& 0x10#32 ≠ 0#32 then
        match checkPageAccess c.cr0 pdePriv access with
        | none => .ub
        | some 0 => .fault addr (errCode c true isWrite)
        | some _ => .ok (fix ((pde &&& 0xFFC00000#32) ||| (addr &&& 0x3FFFFF#32))) (pageInfo pde)
      else
        let pte := rd32 m (fix ((pde &&& 0xFFFFF000#32) ||| ((addr >>> 12) &&& 0x3FF#32) * 4#32))
        if pte &&& 1#32 = 0#32 then .fault addr (errCode c false isWrite)
        else
          match checkPagePrivilege pdePriv (privOf pte) with
          | none => .ub
          | some lv =>
            match checkPageAccess c.cr0 lv.toNat access with
            | none => .ub
            | some 0 => .fault addr (errCode c true isWrite)
            | some _ => .ok (fix ((pte &&& 0xFFFFF000#32) ||| (addr &&& 0xFFF#32))) (pageInfo pte)

end Verif.Paging
