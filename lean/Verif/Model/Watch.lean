/-
Debug registers and watchpoints: core/breakpoint.cpp 11-96, core/instructions.cpp 979-1060
(update_drN_helper), core/internal.hpp 348-362, lib86cpu_priv.hpp 158-165, core/translate.cpp 392-411
(the state of a new cpu), interface.cpp 216-283 (cpu_sync_state calls update_drN_helper for DR7).

Only the registers DR0-DR3, DR6, DR7, the flags CR4.DE and EFLAGS.RF, the two watchpoint lists and the
debug trap interrupt are represented. XBOX_CPU code (page protection) is not.
-/
namespace Verif.Watch

/-- lib86cpu_priv.hpp 158-165: wp_info<addr_t> (width 32) and wp_info<port_t> (width 16). -/
structure Wp (w : Nat) where
  idx : Nat
  lo : BitVec w
  hi : BitVec w
  deriving DecidableEq, Repr

/-- `dr i` for i < 4, `dr6`, `dr7`, CR4.DE, EFLAGS.RF, wp_data, wp_io, CPU_DBG_TRAP_INT pending. -/
structure Dbg where
  dr : Nat → BitVec 32
  dr6 : BitVec 32
  dr7 : BitVec 32
  de : Bool
  rf : Bool
  data : List (Wp 32)
  io : List (Wp 16)
  trap : Bool

/-- breakpoint.cpp 11-16. -/
def enabled (dr7 : BitVec 32) (i : Nat) : Bool := ((dr7 >>> (i * 2)) &&& 3#32) != 0#32

/-- breakpoint.cpp 18-22: 0 instruction, 1 data write, 2 io, 3 data read or write. -/
def type (dr7 : BitVec 32) (i : Nat) : BitVec 32 := (dr7 >>> (16 + i * 4)) &&& 3#32

/-- breakpoint.cpp 24-29. -/
def length (dr7 : BitVec 32) (i : Nat) : BitVec 32 :=
  let len := (dr7 >>> (18 + i * 4)) &&& 3#32
  if len = 2#32 then 8#32 else len + 1#32

/-- instructions.cpp 994-995, 1005-1006, 1030-1031, 1035-1036: first and last address watched. -/
def range (d : Dbg) (i : Nat) : BitVec 32 × BitVec 32 :=
  let len := length d.dr7 i
  let lo := d.dr i &&& ~~~(len - 1#32)
  (lo, lo + len - 1#32)

/-- instructions.cpp 1026-1044: the list entry of register `i` for data, if it is one. -/
def dataEntry (d : Dbg) (i : Nat) : Option (Wp 32) :=
  if enabled d.dr7 i && type d.dr7 i != 2#32 then some ⟨i, (range d i).1, (range d i).2⟩ else none

/-- Same for io: the addresses are cut to 16 bits (port_t). -/
def ioEntry (d : Dbg) (i : Nat) : Option (Wp 16) :=
  if enabled d.dr7 i && type d.dr7 i == 2#32 then
    let lo : BitVec 16 := (d.dr i &&& ~~~(length d.dr7 i - 1#32)).setWidth 16
    some ⟨i, lo, (lo.setWidth 32 + length d.dr7 i - 1#32).setWidth 16⟩
  else none

/-- instructions.cpp 1020-1046: MOV DR7. -/
def writeDr7 (d : Dbg) (v : BitVec 32) : Dbg :=
  let d1 := { d with dr7 := v }
  { d1 with data := [0, 1, 2, 3].filterMap (dataEntry d1), io := [0, 1, 2, 3].filterMap (ioEntry d1) }

/-- The first entry of the list with this index replaced (the `for ... break` loops). -/
def setFirst {w : Nat} (i : Nat) (e : Wp w) : List (Wp w) → List (Wp w)
  | [] => []
  | a :: l => if a.idx = i then e :: l else a :: setFirst i e l

/-- instructions.cpp 983-1018: MOV DR0-DR3. -/
def writeDr (d : Dbg) (i : Nat) (v : BitVec 32) : Dbg :=
  let d1 := { d with dr := fun j => if j = i then v else d.dr j }
  if type d1.dr7 i = 2#32 then
    if enabled d1.dr7 i && d1.de then
      match ioEntry d1 i with
      | some e => { d1 with io := setFirst i e d1.io }
      | none => d1
    else d1
  else if enabled d1.dr7 i then
    { d1 with data := setFirst i ⟨i, (range d1 i).1, (range d1 i).2⟩ d1.data }
  else d1

/-- What is accessed: the `type` argument of the checks. -/
inductive Access | write | fetch | io | read
  deriving DecidableEq, Repr

/-- breakpoint.cpp 44-60: does register `i` match this access? -/
def hits (d : Dbg) (a : Access) (i : Nat) : Bool :=
  match a with
  | .write => type d.dr7 i == 1#32 || type d.dr7 i == 3#32
  | .fetch => !d.rf
  | .io => type d.dr7 i == 2#32
  | .read => type d.dr7 i == 3#32

/-- breakpoint.cpp 62-73: `none` when the debug exception is thrown (instruction fetch), with the state
at that point. -/
def note (d : Dbg) (i : Nat) : Dbg := { d with dr6 := d.dr6 ||| (1#32 <<< i), trap := true }

/-- breakpoint.cpp 76-84, data reads and writes. `addr + size - 1` is computed in 32 bits. -/
def checkData (d : Dbg) (a : Access) (addr size : BitVec 32) : Dbg :=
  d.data.foldl (fun d' w =>
    if w.lo.toNat ≤ (addr + size - 1#32).toNat ∧ addr.toNat ≤ w.hi.toNat then
      if hits d' a w.idx then note d' w.idx else d'
    else d') d

/-- breakpoint.cpp 86-95. `port + size - 1` is computed in 32 bits. -/
def checkIo (d : Dbg) (port : BitVec 16) (size : BitVec 32) : Dbg :=
  d.io.foldl (fun d' w =>
    if w.lo.toNat ≤ (port.setWidth 32 + size - 1#32).toNat ∧ port.toNat ≤ w.hi.toNat then
      if hits d' .io w.idx then note d' w.idx else d'
    else d') d

/-- breakpoint.cpp 76-84 with DR7_TYPE_INSTR and size 1 (translate.cpp 1489, memory_management.cpp 666):
is a debug exception thrown? The first matching entry throws. -/
def checkFetch (d : Dbg) (pc : BitVec 32) : Bool :=
  d.data.any (fun w => decide (w.lo.toNat ≤ (pc + 1#32 - 1#32).toNat ∧ pc.toNat ≤ w.hi.toNat) && hits d .fetch w.idx)

/-- Events that change the debug state. -/
inductive Op
  | movDr (i : Fin 4) (v : BitVec 32)
  | movDr6 (v : BitVec 32)
  | movDr7 (v : BitVec 32)
  /-- MOV CR4 -/
  | setDe (b : Bool)
  /-- any instruction changing EFLAGS.RF -/
  | setRf (b : Bool)
  /-- the client changes the registers (get_regs_ptr) and calls cpu_sync_state, as it must -/
  | client (dr : Nat → BitVec 32) (dr6 dr7 : BitVec 32) (de rf : Bool)
  /-- cpu_sync_state, start of cpu_run -/
  | sync
  /-- a data access or port access is checked -/
  | access (a : Access) (addr size : BitVec 32)
  | accessIo (port : BitVec 16) (size : BitVec 32)
  /-- the pending trap is delivered (cpu_do_int) -/
  | deliver

def step (d : Dbg) : Op → Dbg
  | .movDr i v => writeDr d i.val v
  | .movDr6 v => { d with dr6 := v ||| 0xFFFF0FF0#32 }
  | .movDr7 v => writeDr7 d v
  | .setDe b => { d with de := b }
  | .setRf b => { d with rf := b }
  | .client r v6 v7 e f => writeDr7 { d with dr := r, dr6 := v6, de := e, rf := f } v7
  | .sync => writeDr7 d d.dr7
  | .access a addr size => checkData d a addr size
  | .accessIo p size => checkIo d p size
  | .deliver => { d with trap := false }

def run (d : Dbg) (l : List Op) : Dbg := l.foldl step d

/-- A new cpu (cpu_new ends with cpu_reset; the lists are empty). -/
def create : Dbg := ⟨fun _ => 0#32, 0xFFFF0FF0#32, 0x400#32, false, false, [], [], false⟩

end Verif.Watch
