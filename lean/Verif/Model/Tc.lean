/-
The code cache: core/translate.cpp 976-1352 and 1478-1590 (tc_* functions, cpu_translate, cpu_main_loop), the
return stack buffer core/helpers.cpp 278-342, the jump table lookup emitted by core/emitter/x64/jit.cpp 945-1044,
hooks interface.cpp 1256-1303, and the calls of tc_invalidate in core/memory_management.hpp 294-331 and
memory_management.cpp 772-793.

Simplifications: guest memory is plain ram without aliases (C03, C05, C46 for block writes in Props/Block);
`map` is the translation of linear to physical pages the cpu uses for fetching (the page walk and the TLB are
C17-C22), and it changes only together with the invalidation the guest must perform; host code is represented
by the guest instructions it was generated from, and a pointer to a block by the block with its identity `id`;
a fault while fetching, the debugger (CPU_DISAS_ONE, CPU_SINGLE_STEP) and the ipt are not modelled.
-/
namespace Verif.Tc

/-- An emitted instruction: a decoded one with its bytes, or the inline #UD or #GP emitted for bytes that do not
decode (translate.cpp 1279-1307). -/
inductive Ins where
  | ok (bytes : List (BitVec 8))
  | bad
deriving DecidableEq

/-- lib86cpu_priv.hpp 132-141, translated_code_t; `size` is the number of guest bytes, zero for a hook. -/
structure Tc where
  id : Nat
  csBase : BitVec 32
  pc : BitVec 32
  virt : BitVec 32
  flags : BitVec 32
  size : Nat
  body : List Ins
  hook : Option Nat
deriving DecidableEq

/-- lib86cpu_priv.hpp 143-149, jmp_table_elem; `tc` is the block of ptr_code. -/
structure Elem where
  virt : BitVec 32
  csBase : BitVec 32
  flags : BitVec 32
  tc : Option Tc

/-- One entry of the return stack buffer: RSB_VALID_ENTRY, the offset and the target of word 0, and word 1.
Clearing an entry (`rsb[i][0] = 0`) clears all but the block. -/
structure Rsb where
  valid : Bool
  off : Nat
  target : BitVec 32
  tc : Option Tc

/-- The parts of cpu_t used by the code cache. -/
structure St where
  mem : BitVec 32 → BitVec 8
  map : BitVec 20 → BitVec 20
  csBase : BitVec 32
  flags : BitVec 32
  /-- get_pc. -/
  now : BitVec 32
  /-- block being executed, if it is a cached one. -/
  cur : Option Tc
  halt : Bool
  cache : BitVec 15 → List Tc
  pages : BitVec 20 → List Tc
  smc : BitVec 20 → Bool
  jmpMap : BitVec 20 → List (BitVec 32)
  jmp : BitVec 12 → Elem
  rsb : BitVec 6 → Rsb
  rsbPtr : BitVec 6
  num : Nat
  hooks : BitVec 32 → Option Nat
  next : Nat

/-- Assignment to one element of an array. -/
def upd {α β : Type} [DecidableEq α] (f : α → β) (k : α) (v : β) : α → β := fun x => if x = k then v else f x

/-- `addr >> PAGE_SHIFT`. -/
def page (a : BitVec 32) : BitVec 20 := (a >>> 12).setWidth 20

/-- Physical address of a linear one. -/
def phys (map : BitVec 20 → BitVec 20) (v : BitVec 32) : BitVec 32 :=
  ((map (page v)).setWidth 32 <<< 12) ||| (v &&& 0xFFF#32)

/-- internal.hpp 105: HFLG_CONST. -/
def HFLG_CONST : BitVec 32 := 0x7F88EFF#32

/-- internal.hpp 242: EFLAGS_CONST. -/
def EFLAGS_CONST : BitVec 32 := 0x73100#32

/-- internal.hpp 83: HFLG_INVALID. -/
def INVALID : BitVec 32 := 0x80000000#32

/-- The mode of the cpu a block is translated for, translate.cpp 1121 and elsewhere. -/
def modeOf (hflags eflags : BitVec 32) : BitVec 32 := (hflags &&& HFLG_CONST) ||| (eflags &&& EFLAGS_CONST)

/-- translate.cpp 992-996, tc_hash. -/
def hash (pc : BitVec 32) : BitVec 15 := pc.setWidth 15

/-- `virt_pc & JMP_TABLE_MASK`. -/
def jidx (v : BitVec 32) : BitVec 12 := v.setWidth 12

/-- A cleared entry. -/
def Rsb.clear (r : Rsb) : Rsb := { r with valid := false, off := 0, target := 0#32 }

/-- helpers.cpp 324-331, rsb_flush(cpu). -/
def rsbFlush (s : St) : St := { s with rsb := fun i => (s.rsb i).clear, rsbPtr := 0#6 }

/-- helpers.cpp 333-342, rsb_flush(cpu, addr). -/
def rsbFlushPage (s : St) (a : BitVec 32) : St :=
  { s with rsb := fun i => if page (s.rsb i).target = page a then (s.rsb i).clear else s.rsb i }

/-- helpers.cpp 278-288, rsb_push. -/
def rsbPush (s : St) (tc : Option Tc) (off : Nat) (target : BitVec 32) : St :=
  let p := s.rsbPtr - 1#6
  { s with rsbPtr := p, rsb := upd s.rsb p ⟨true, off, target, tc⟩ }

/-- helpers.cpp 290-322, rsb_pop: the block and offset to jump to, if any. -/
def rsbPop (s : St) : Option (Tc × Nat) × St :=
  let e := s.rsb s.rsbPtr
  let popped := { s with rsb := upd s.rsb s.rsbPtr e.clear, rsbPtr := s.rsbPtr + 1#6 }
  if e.valid = false then (none, rsbFlush s)
  else
    match e.tc with
    | none => (none, popped)
    | some t =>
      if s.now = e.target ∧ s.csBase = t.csBase ∧ s.flags = t.flags then (some (t, e.off), popped)
      else (none, rsbFlush s)

/-- An entry of the jump table marked invalid. -/
def Elem.kill (e : Elem) : Elem := { e with flags := INVALID }

/-- translate.cpp 997-1010, tc_unlink. -/
def unlink (s : St) (v : BitVec 32) : St :=
  let s := if v ∈ s.jmpMap (page v) then
    { s with
      jmpMap := upd s.jmpMap (page v) ((s.jmpMap (page v)).filter (· ≠ v))
      jmp := upd s.jmp (jidx v) (s.jmp (jidx v)).kill } else s
  rsbFlushPage s v

/-- translate.cpp 1012-1023, tc_unlink_page. -/
def unlinkPage (s : St) (v : BitVec 32) : St :=
  let dead := s.jmpMap (page v)
  let s := { s with
    jmp := fun i => if i ∈ dead.map jidx then (s.jmp i).kill else s.jmp i
    jmpMap := upd s.jmpMap (page v) [] }
  rsbFlushPage s v

/-- translate.cpp 1025-1033, tc_unlink_all. -/
def unlinkAll (s : St) : St :=
  rsbFlush { s with jmpMap := fun _ => [], jmp := fun i => (s.jmp i).kill }

/-- translate.cpp 1053-1058: whether a write of `n` bytes at `p` touches a block; the arithmetic is done in 64
bits. -/
def overlaps (t : Tc) (p : BitVec 32) (n : Nat) : Bool :=
  t.size != 0 && !(decide (min (p.toNat + n - 1) (t.pc.toNat + t.size - 1) < max p.toNat t.pc.toNat))

/-- translate.cpp 1064-1083: removal of one block from the links and the cache; the third part tells that it is
the block at the current instruction pointer. -/
def drop (s : St) (t : Tc) : St :=
  let s := unlink s t.virt
  let h := decide (t.csBase = s.csBase ∧ t.pc = phys s.map s.now ∧ t.flags = s.flags ∧ t ∈ s.cache (hash t.pc))
  { s with
    cache := upd s.cache (hash t.pc) ((s.cache (hash t.pc)).filter (·.id ≠ t.id))
    halt := s.halt || h }

/-- translate.cpp 1090-1106: the page no longer holds the removed blocks. -/
def dropPage (s : St) (q : BitVec 20) (live : List Tc) : St :=
  { s with
    pages := upd s.pages q live
    smc := if live = [] then upd s.smc q false else s.smc }

/-- translate.cpp 1035-1113, tc_invalidate<false>. -/
def invalidate (s : St) (p : BitVec 32) (n : Nat) : St :=
  let q := page p
  if s.pages q = [] then s
  else
    let dead := (s.pages q).filter (overlaps · p n)
    let live := (s.pages q).filter (!overlaps · p n)
    dropPage (dead.foldl drop s) q live

/-- translate.cpp 1035-1113, tc_invalidate<true>: removes the first hook block found at `p`.  The order of the set
is not specified; here it is the order of insertion. -/
def invalidateHook (s : St) (p : BitVec 32) : St :=
  let q := page p
  match (s.pages q).find? (fun t => t.size == 0 && t.pc == p) with
  | none => s
  | some t => dropPage (drop s t) q ((s.pages q).filter (·.id ≠ t.id))

/-- translate.cpp 1116-1133, tc_cache_search. -/
def search (s : St) (pc : BitVec 32) : Option Tc :=
  (s.cache (hash pc)).find? (fun t => t.csBase == s.csBase && t.pc == pc && t.flags == s.flags)

/-- translate.cpp 1135-1141, tc_cache_insert. -/
def insert (s : St) (t : Tc) : St :=
  { s with
    num := s.num + 1
    pages := upd s.pages (page t.pc) (s.pages (page t.pc) ++ [t])
    cache := upd s.cache (hash t.pc) (t :: s.cache (hash t.pc)) }

/-- translate.cpp 1150-1164, tc_cache_clear. -/
def clear (s : St) : St :=
  unlinkAll { s with pages := fun _ => [], smc := fun _ => false, cache := fun _ => [] }

/-- translate.cpp 1166-1173, tc_cache_purge; the code memory is C50. -/
def purge (s : St) : St := { clear s with num := 0 }

/-- translate.cpp 1175-1199, tc_link_jmp. -/
def linkJmp (s : St) (t : Tc) : St :=
  let i := jidx t.virt
  let e := s.jmp i
  let m := if e.flags &&& INVALID = 0#32 then
    upd s.jmpMap (page e.virt) ((s.jmpMap (page e.virt)).filter (· ≠ e.virt)) else s.jmpMap
  { s with
    jmp := upd s.jmp i ⟨t.virt, t.csBase, t.flags, some t⟩
    jmpMap := upd m (page t.virt) (t.virt :: (m (page t.virt)).filter (· ≠ t.virt)) }

/-- What the decoder makes of the bytes at an address: an instruction, and whether it ends a block, or an error. -/
inductive Dec where
  | ok (len : Nat) (ends : Bool)
  | bad

/-- Instruction decoder (zydis with s_instr_table): a function of the mode and of the bytes. -/
abbrev Decoder := BitVec 32 → (Nat → BitVec 8) → Dec

/-- memory_management.cpp 664-693, ram_fetch: bytes on the page of the instruction come from the physical address
of the instruction, the others from the translation of the next page. -/
def fetch (mem : BitVec 32 → BitVec 8) (map : BitVec 20 → BitVec 20) (pc v : BitVec 32) (i : Nat) : BitVec 8 :=
  let j := BitVec.ofNat 32 i
  if page (v + j) = page v then mem (pc + j) else mem (phys map (v + j))

/-- DISAS_FLG_ONE_INSTR: trap or resume flag, translate.cpp 1519-1524. -/
def oneInstr (flags : BitVec 32) : Bool := flags &&& 0x10100#32 != 0#32

/-- translate.cpp 1229-1353, cpu_translate: the instructions, the size counted in tc->size, and DISAS_FLG_PAGE_CROSS.
A block never extends over a page, so 4096 steps are enough. -/
def translateLoop (d : Decoder) (fl : BitVec 32) (mem : BitVec 32 → BitVec 8) (map : BitVec 20 → BitVec 20) :
    Nat → BitVec 32 → BitVec 32 → List Ins × Nat × Bool
  | 0, _, _ => ([], 0, false)
  | fuel + 1, pc, v =>
    match d fl (fetch mem map pc v) with
    | .bad => ([.bad], 0, false)
    | .ok len ends =>
      let l := BitVec.ofNat 32 len
      let cross := page v != page (v + l - 1#32)
      let crossNext := page v != page (v + l)
      let ins := Ins.ok ((List.range len).map (fetch mem map pc v))
      if ends || cross || crossNext || oneInstr fl then ([ins], len, cross)
      else
        let r := translateLoop d fl mem map fuel (pc + l) (v + l)
        (ins :: r.1, len + r.2.1, r.2.2)

/-- The block translated at linear address `v`, and whether it goes into the cache: translate.cpp 1507-1574. -/
def translate (d : Decoder) (s : St) (v : BitVec 32) : Tc × Bool :=
  let pc := phys s.map v
  match (if s.flags &&& 0x40#32 = 0#32 then s.hooks v else none) with
  | some h => (⟨s.next, s.csBase, pc, v, s.flags, 0, [], some h⟩, !oneInstr s.flags)
  | none =>
    let r := translateLoop d s.flags s.mem s.map 4096 pc v
    (⟨s.next, s.csBase, pc, v, s.flags, r.2.1, r.1, none⟩, !(r.2.2 || oneInstr s.flags))

/-- One round of cpu_main_loop, translate.cpp 1484-1588, at linear address `v`: the block executed.  `link` tells
that the previous block may be linked to this one (tc_link_prev). -/
def mainLoop (d : Decoder) (s : St) (v : BitVec 32) (link : Bool) : Tc × St :=
  let pc := phys s.map v
  let s := { s with smc := upd s.smc (page pc) true, now := v }
  match search s pc with
  | some t => (t, { (if link then linkJmp s t else s) with cur := some t })
  | none =>
    let r := translate d s v
    let s := { s with next := s.next + 1 }
    let full := s.num == 32768
    let s := if full then purge s else s
    if r.2 then
      let s := insert s r.1
      (r.1, { (if link && !full then linkJmp s r.1 else s) with cur := some r.1 })
    else (r.1, { s with cur := none })

/-- jit.cpp 967-992: the block the emitted code jumps to directly, if any. -/
def jumpTo (s : St) (v : BitVec 32) : Option Tc :=
  let e := s.jmp (jidx v)
  if e.virt = v ∧ e.csBase = s.csBase ∧ e.flags = s.flags then e.tc else none

/-- Bytes stored from a physical address on. -/
def store (mem : BitVec 32 → BitVec 8) (p : BitVec 32) (bs : List (BitVec 8)) : BitVec 32 → BitVec 8 :=
  fun a => bs.getD (a - p).toNat (mem a)

/-- memory_management.cpp 784-803 and memory_management.hpp 322-330: a write of guest data within a page. -/
def write (s : St) (p : BitVec 32) (bs : List (BitVec 8)) : St :=
  let s := if s.smc (page p) then invalidate s p bs.length else s
  { s with mem := store s.mem p bs }

/-- memory_management.hpp 298-321: a write that crosses a page boundary.  The second invalidation starts at the
last byte written. -/
def writeCross (s : St) (v : BitVec 32) (bs : List (BitVec 8)) : St :=
  let last := v + BitVec.ofNat 32 bs.length - 1#32
  let ps := phys s.map v
  let pe := phys s.map last
  let n1 := ((last &&& 0xFFFFF000#32) - v).toNat
  let c1 := s.smc (page ps)
  let c2 := s.smc (page pe)
  let s := if c1 then invalidate s ps n1 else s
  let s := if c2 then invalidate s pe (bs.length - n1) else s
  { s with mem := store (store s.mem ps (bs.take n1)) (pe &&& 0xFFFFF000#32) (bs.drop n1) }

/-- interface.cpp 1256-1276, hook_add, for a mapped address. -/
def hookAdd (s : St) (a : BitVec 32) (h : Nat) : St :=
  let pc := phys s.map a
  let s := { s with smc := upd s.smc (page pc) true }
  let s := invalidate s pc 1
  { s with hooks := upd s.hooks a (some h) }

/-- interface.cpp 1284-1303, hook_remove, for a mapped address; false is not_found. -/
def hookRemove (s : St) (a : BitVec 32) : Bool × St :=
  if s.hooks a = none then (false, s)
  else (true, invalidateHook { s with hooks := upd s.hooks a none } (phys s.map a))

/-- The cpu after cpu_reset, translate.cpp 390-429. -/
def reset (mem : BitVec 32 → BitVec 8) (map : BitVec 20 → BitVec 20) : St where
  mem := mem
  map := map
  csBase := 0xFFFF0000#32
  flags := 0#32
  now := 0xFFFFFFF0#32
  cur := none
  halt := false
  cache := fun _ => []
  pages := fun _ => []
  smc := fun _ => false
  jmpMap := fun _ => []
  jmp := fun _ => ⟨0#32, 0#32, INVALID, none⟩
  rsb := fun _ => ⟨false, 0, 0#32, none⟩
  rsbPtr := 0#6
  num := 0
  hooks := fun _ => none
  next := 0

/-- What can happen to the code cache. -/
inductive Op where
  /-- the main loop runs the block at a linear address -/
  | run (v : BitVec 32) (link : Bool)
  /-- the running block ends with a jump -/
  | jump (v : BitVec 32)
  /-- the running block executes a CALL that returns to `target` -/
  | call (off : Nat) (target : BitVec 32)
  /-- an exception is delivered, translate.cpp 969 -/
  | event (target : BitVec 32)
  /-- the running block executes a RET to a linear address -/
  | ret (v : BitVec 32)
  /-- the running block reaches its next instruction -/
  | advance (v : BitVec 32)
  | write (p : BitVec 32) (bs : List (BitVec 8))
  | writeCross (v : BitVec 32) (bs : List (BitVec 8))
  /-- far transfers, mode switches and EFLAGS writes -/
  | setMode (csBase hflags eflags : BitVec 32)
  /-- a linear page is mapped elsewhere and invalidated, interface.cpp 1215-1246 -/
  | invlpg (v : BitVec 32) (to : BitVec 20)
  /-- CR3 and paging mode writes, memory_management.cpp 176-200 -/
  | flush (map : BitVec 20 → BitVec 20)
  /-- tc_clear_cache_and_tlb and tc_cache_clear -/
  | clear
  | purge
  /-- a block that is not cached was executed, translate.cpp 1568-1571 -/
  | flushCall (v : BitVec 32)
  | hookAdd (a : BitVec 32) (h : Nat)
  | hookRemove (a : BitVec 32)
  /-- CPU_HALT_TC_INT is serviced -/
  | serviced

/-- Effect of an event, and the block it starts executing. -/
def step (d : Decoder) (s : St) : Op → Option Tc × St
  | .run v link => let r := mainLoop d s v link; (some r.1, r.2)
  | .jump v =>
    match jumpTo s v with
    | some t => (some t, { s with now := v, cur := some t })
    | none => (none, { s with now := v, cur := none })
  | .call off target => (none, rsbPush s s.cur off target)
  | .event target => (none, rsbPush s none 0 target)
  | .ret v =>
    let r := rsbPop { s with now := v }
    match r.1 with
    | some (t, _) => (some t, { r.2 with cur := some t })
    | none => (none, { r.2 with cur := none })
  | .advance v => (none, { s with now := v })
  | .write p bs => (none, Tc.write s p bs)
  | .writeCross v bs => (none, Tc.writeCross s v bs)
  | .setMode b h e => (none, { s with csBase := b, flags := modeOf h e })
  | .invlpg v to => (none, unlinkPage { s with map := upd s.map (page v) to } v)
  | .flush map => (none, unlinkAll { s with map := map })
  | .clear => (none, Tc.clear s)
  | .purge => (none, Tc.purge s)
  | .flushCall v => (none, rsbFlushPage s v)
  | .hookAdd a h => (none, Tc.hookAdd s a h)
  | .hookRemove a => (none, (Tc.hookRemove s a).2)
  | .serviced => (none, { s with halt := false })

/-- A history. -/
def hist (d : Decoder) (s : St) : List Op → St
  | [] => s
  | o :: os => hist d (step d s o).2 os

end Verif.Tc
