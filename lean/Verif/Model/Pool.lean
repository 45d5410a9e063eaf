/-
The allocator of memory for translated code, core/allocator.cpp 14-158, and its use by the main loop,
core/translate.cpp 1557-1577, and tc_cache_purge, translate.cpp 1166-1173.

Simplifications: a block of the pool is named by its index; memory obtained from the system by an identity that the
system never hands out while it is in use; of the content of a block only the word that holds `next` while the block
is free is modelled; the exception tables (m_eh_frames) and the auxiliary block behind the pool are not modelled.
-/
namespace Verif.Pool

/-- internal.hpp: CODE_CACHE_MAX_SIZE. -/
def MAX : Nat := 32768

/-- Address of a block: in the pool, or obtained from the system. -/
inductive Ptr where
  | pool (i : Nat)
  | big (k : Nat)
deriving DecidableEq

/-- allocator.hpp 43-59: m_head, the first word of every block and the keys of m_big_blocks. -/
structure Mgr where
  head : Option Nat
  next : Nat → Option Nat
  big : List Nat

/-- A store to the first word of a block. -/
def put (next : Nat → Option Nat) (i : Nat) (v : Option Nat) : Nat → Option Nat := fun j => if j = i then v else next j

/-- allocator.cpp 25-29, the loop of init_pool: `n` more iterations at block `i`. -/
def initLoop : Nat → Nat → (Nat → Option Nat) → Nat × (Nat → Option Nat)
  | 0, i, next => (i, next)
  | n + 1, i, next => initLoop n (i + 1) (put next i (some (i + 1)))

/-- allocator.cpp 20-31, init_pool. -/
def init (m : Mgr) : Mgr :=
  let r := initLoop (MAX - 1) 0 m.next
  { m with head := some 0, next := put r.2 r.1 none }

/-- allocator.cpp 33-40, alloc; none is the failed assert (a null dereference without assertions). -/
def alloc (m : Mgr) : Option (Nat × Mgr) :=
  match m.head with
  | none => none
  | some i => some (i, { m with head := m.next i })

/-- allocator.cpp 42-47, free. -/
def free (m : Mgr) (i : Nat) : Mgr := { m with next := put m.next i m.head, head := some i }

/-- allocator.cpp 49-72, destroy_all_blocks. -/
def destroyAll (m : Mgr) : Mgr := { init m with big := [] }

/-- allocator.cpp 84-100, allocate_sys_mem for a size that is not zero; `k` is the memory the system would give. -/
def allocate (m : Mgr) (size k : Nat) : Option (Ptr × Mgr) :=
  if size > 4096 then some (.big k, { m with big := k :: m.big })
  else (alloc m).map fun r => (.pool r.1, r.2)

/-- allocator.cpp 131-158, release_sys_mem.  The address of a big block is never the address of a pool block. -/
def release (m : Mgr) : Ptr → Mgr
  | .big k => { m with big := m.big.filter (· ≠ k) }
  | .pool i => free m i

/-- The main loop as a client: blocks in the cache since the last purge, and blocks that are running and not in the
cache, the innermost first (nested loops are started by trampoline_call and by the debugger). -/
structure Client where
  mgr : Mgr
  num : Nat
  cached : List Ptr
  temps : List Ptr

/-- The program starts: allocator.cpp 14-18. -/
def start (next : Nat → Option Nat) : Client := ⟨init ⟨none, next, []⟩, 0, [], []⟩

/-- What happens to code memory. -/
inductive Op where
  /-- a block is translated, translate.cpp 1557-1577: `temp` if it is run without being cached -/
  | translate (temp : Bool) (size k : Nat)
  /-- translate.cpp 1572: the innermost uncached block has run -/
  | finish
  /-- lc86_exp_abort leaves all main loops -/
  | abort
  /-- code is written to a block -/
  | code (p : Ptr) (w : Option Nat)
  /-- tc_cache_purge, for example from cpu_reset -/
  | purge

/-- translate.cpp 1166-1173, tc_cache_purge. -/
def purge (c : Client) : Client := { c with mgr := destroyAll c.mgr, num := 0, cached := [] }

/-- Effect; none is undefined behaviour. -/
def step (c : Client) : Op → Option Client
  | .translate temp size k =>
    let c := if c.num = MAX then purge c else c
    match allocate c.mgr size k with
    | none => none
    | some (p, m) =>
      if temp then some { c with mgr := m, temps := p :: c.temps }
      else some { c with mgr := m, num := c.num + 1, cached := p :: c.cached }
  | .finish =>
    match c.temps with
    | [] => some c
    | p :: r => some { c with mgr := release c.mgr p, temps := r }
  | .abort => some { c with temps := [] }
  | .code p w =>
    match p with
    | .pool i => some { c with mgr := { c.mgr with next := put c.mgr.next i w } }
    | .big _ => some c
  | .purge => some (purge c)

/-- A history. -/
def run (c : Client) : List Op → Option Client
  | [] => some c
  | o :: os => (step c o).bind fun c => run c os

end Verif.Pool
