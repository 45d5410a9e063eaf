/-
Single stepping and instruction breakpoints, as the main loop, the translator and the code it emits implement them:
core/translate.cpp 1229-1352 (cpu_translate), 1355-1376 (cpu_do_int), 1478-1592 (cpu_main_loop), core/emitter/x64/jit.cpp 796-810
(update_eip, gen_interrupt_check), 830-862 (gen_no_link_checks, gen_tc_epilogue), 909-941 (gen_check_rf_single_step),
core/breakpoint.cpp 42-86 (cpu_check_watchpoints), core/memory_management.cpp 660-666 (ram_fetch).

Simplifications.  An instruction is a function of the rest of the guest's state, so it does not read DR6 (bits 0-3 are set early, see
C109).  CS has base zero and code addresses are not translated (Model/Tc.lean).  A breakpoint is an address with the number of its
register (how DR7 gives them is Model/Watch.lean).  Delivery always succeeds (Model/Exc.lean).  The
debugger's CPU_SINGLE_STEP, HLT, REP prefixes and hardware interrupts are not here.
-/
namespace Verif.Step

abbrev Addr := BitVec 32

/-- EFLAGS.TF and EFLAGS.RF: core/internal.hpp 231, 236. -/
structure Fl where
  tf : Bool
  rf : Bool
deriving DecidableEq

/-- The enabled instruction breakpoints: core/breakpoint.cpp 78-86. -/
abbrev Bps := Addr → Option (Fin 4)

/-- What an instruction does if it completes: the rest of the state, the next EIP, the flags POPF or IRET load, the data watchpoints its
accesses hit (bits of DR6; breakpoint.cpp 62-72) and the change MOV DR makes to the breakpoints (instructions.cpp 979-1060). -/
structure Eff (σ : Type) where
  rest : σ
  next : Addr
  fl : Option Fl
  hit : BitVec 4
  bps : Bps → Bps

/-- An instruction completes, or raises an exception or interrupt `n` that returns to `ret` (its own address for a fault, the next one
for INT n), after accesses that hit some watchpoints. -/
inductive Act (σ : Type) where
  | done (e : Eff σ)
  | raise (n : Nat) (hit : BitVec 4) (rest : σ) (ret : Addr)

/-- An instruction: its length, whether the translator ends the block with it (`translate_next = 0`, translate.cpp 1352), its effect. -/
structure Insn (σ : Type) where
  len : Nat
  ends : Bool
  act : σ → Act σ

/-- A delivered exception or interrupt: vector, return address and flags pushed. -/
structure Ev where
  vec : Nat
  ret : Addr
  fl : Fl
deriving DecidableEq

/-- The delivery of exceptions (Model/Exc.lean): where the handlers are and what pushing a frame does to the rest of the state. -/
structure Hand (σ : Type) where
  entry : Nat → Addr
  push : Ev → σ → σ

/-- The machine: `trap` is CPU_DBG_TRAP_INT pending, `idx` is exp_info.exp_data.idx. -/
structure M (σ : Type) where
  eip : Addr
  fl : Fl
  rest : σ
  bps : Bps
  dr6 : BitVec 32
  trap : Bool
  idx : Nat
  log : List Ev

/-- breakpoint.cpp 63: the bit of DR6 of a breakpoint. -/
def bit (i : Fin 4) : BitVec 32 := 1#32 <<< i.val

/-- cpu_raise_exception (translate.cpp 560-960): push, clear TF and RF (825, 922, 954), go to the handler. -/
def deliver {σ : Type} (h : Hand σ) (n : Nat) (ret : Addr) (m : M σ) : M σ :=
  { m with eip := h.entry n, fl := ⟨false, false⟩, rest := h.push ⟨n, ret, m.fl⟩ m.rest, idx := n, log := ⟨n, ret, m.fl⟩ :: m.log }

/-- breakpoint.cpp 62-72: DR6, the exception data and the pending trap after the accesses of an instruction. -/
def hits {σ : Type} (b : BitVec 4) (m : M σ) : M σ :=
  if b = 0#4 then m else { m with dr6 := m.dr6 ||| b.setWidth 32, idx := 1, trap := true }

/-- translate.cpp 1364-1376 (cpu_do_int with CPU_DBG_TRAP_INT): the trap is dismissed if another exception was raised since. -/
def doInt {σ : Type} (h : Hand σ) (m : M σ) : M σ :=
  if m.idx = 1 then { deliver h 1 m.eip m with trap := false } else { m with trap := false }

/-- jit.cpp 799-810, gen_interrupt_check. -/
def check {σ : Type} (h : Hand σ) (m : M σ) : M σ := if m.trap then doInt h m else m

/-- jit.cpp 830-845 and 909-941: the end of a block translated with flags `f`. -/
def endCheck {σ : Type} (h : Hand σ) (f : Fl) (m : M σ) : M σ :=
  let m := if f.rf then { m with fl := { m.fl with rf := false } } else m
  if f.tf then deliver h 1 m.eip { m with dr6 := m.dr6 ||| 0x4000#32, idx := 1 } else check h m

/-- A translated block: where it starts, the flags it was translated with (`guest_flags`), its instructions, and whether the translator
stopped it before a breakpoint (translate.cpp 1248-1256). -/
structure Blk where
  start : Addr
  fl : Fl
  code : List Addr
  brk : Bool

/-- translate.cpp 1242-1352: the instructions from `a` on, until one that ends the block, a breakpoint (ram_fetch, memory_management.cpp
666) or the `n + 1`st one (a page boundary, or 0 for DISAS_FLG_ONE_INSTR). -/
def gather {σ : Type} (P : Addr → Insn σ) (bp : Bps) : Nat → Addr → List Addr × Option (Fin 4)
  | 0, a => match bp a with
    | some i => ([], some i)
    | none => ([a], none)
  | n + 1, a => match bp a with
    | some i => ([], some i)
    | none =>
      if (P a).ends then ([a], none)
      else ((a :: (gather P bp n (a + BitVec.ofNat 32 (P a).len)).1), (gather P bp n (a + BitVec.ofNat 32 (P a).len)).2)

/-- The emitted code of the instructions of a block translated with flags `f`. -/
def body {σ : Type} (h : Hand σ) (P : Addr → Insn σ) (f : Fl) (brk : Bool) : List Addr → M σ → M σ
  | [], m => if brk then deliver h 1 m.eip m else m
  | a :: l, m => match (P a).act m.rest with
    | .raise n b r ret => deliver h n ret (hits b { m with rest := r })
    | .done e =>
      let m' := hits e.hit { m with rest := e.rest, eip := e.next, fl := e.fl.getD m.fl, bps := e.bps m.bps }
      if l = [] ∧ brk = false then endCheck h f m'
      else if m'.trap then doInt h m' else body h P f brk l m'

/-- The breakpoint at the next instruction, if RF is clear (breakpoint.cpp 52-56). -/
def hitBp {σ : Type} (m : M σ) : Option (Fin 4) := if m.fl.rf then none else m.bps m.eip

/-- tc_cache_search (translate.cpp 1180-1227): a block for this address and these flags. -/
def find (c : List Blk) (a : Addr) (f : Fl) : Option Blk := c.find? fun b => b.start = a ∧ b.fl = f

/-- What is left to chance in a turn: whether the previous block jumps straight to the next one (jit.cpp 942-1056), how many instructions
fit before the end of the page, whether the translated block is kept, and which blocks the cache loses before. -/
structure Choice where
  linked : Bool
  n : Nat
  keep : Bool
  stay : Blk → Bool

/-- translate.cpp 1484-1592: the main loop gets to the next block. -/
def enter {σ : Type} (h : Hand σ) (P : Addr → Insn σ) (o : Choice) (m : M σ) (c : List Blk) : M σ × List Blk :=
  match hitBp m with
  | some i => (deliver h 1 m.eip { m with dr6 := m.dr6 ||| bit i, idx := 1 }, c)
  | none => match find c m.eip m.fl with
    | some b => (body h P b.fl b.brk b.code m, c)
    | none =>
      let one := m.fl.tf || m.fl.rf
      let g := gather P (if m.fl.rf then fun _ => none else m.bps) (if one then 0 else o.n) m.eip
      let m' := match g.2 with
        | some i => { m with dr6 := m.dr6 ||| bit i, idx := 1 }
        | none => m
      let b : Blk := ⟨m.eip, m.fl, g.1, g.2.isSome⟩
      (body h P b.fl b.brk b.code m', if one || g.2.isSome || !o.keep then c else b :: c)

/-- One block: through a link, which does not look at breakpoints, or through the main loop. -/
def turn {σ : Type} (h : Hand σ) (P : Addr → Insn σ) (x : M σ × List Blk) (o : Choice) : M σ × List Blk :=
  let c := x.2.filter o.stay
  if o.linked then match find c x.1.eip x.1.fl with
    | some b => (body h P b.fl b.brk b.code x.1, c)
    | none => enter h P o x.1 c
  else enter h P o x.1 c

end Verif.Step
