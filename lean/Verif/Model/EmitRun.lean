import Verif.Model.EmitJump
/-
Whole executions: core/translate.cpp 1228-1352 (cpu_translate) and 1477-1592 (cpu_main_loop), core/emitter/x64/jit.cpp 831-864
(gen_no_link_checks, gen_tc_epilogue), 944-1056 (block linking).  The guest program is what the decoder finds at each linear address, and stays as
it is (self-modifying code: see Tc); its instructions are those of EmitBlock and EmitJump, so CS, its base and the mode bits do not change.  The
code cache is the set of blocks by linear address: that a link, a return stack buffer hit or a search of the cache finds a block of the wanted
address and mode is the subject of Tc (C46, C47).  A CALL does not end the translation (jit.cpp 4947-4957): what follows it is entered by a return
only, and is here the block of the return address.
-/
namespace Verif.Emit
open Host

/-- What the decoder finds: an instruction of the middle of a block, or one that ends it. -/
inductive Decoded where
  | insn (i : Insn) (len : Nat)
  | jump (j : Jump) (len : Nat) (size32 : Bool)

/-- Its length. -/
def Decoded.len : Decoded → Nat
  | .insn _ n => n
  | .jump _ n _ => n

/-- The guest program by linear address; `none`: no instruction can be fetched or decoded there. -/
abbrev Prog := BitVec 32 → Option Decoded

/-- The instructions of a block and the jump that ends it, if there is one. -/
structure Blk where
  l : List (Insn × Nat)
  tail : Option (Jump × Nat × Bool)

/-- translate.cpp 1241-1350: the instructions of the block at `pc`.  The loop has no counter; it ends with the page, so 4096 turns are enough
(C104_whole_page). -/
def gather (p : Prog) (one : Bool) : Nat → BitVec 32 → Blk
  | 0, _ => ⟨[], none⟩
  | k + 1, pc =>
    match p pc with
    | none => ⟨[], none⟩
    | some (.jump j n s) => ⟨[], some (j, n, s)⟩
    | some (.insn i n) =>
      if one || crosses pc n then ⟨[(i, n)], none⟩
      else ⟨(i, n) :: (gather p one k (pc + BitVec.ofNat 32 n)).l, (gather p one k (pc + BitVec.ofNat 32 n)).tail⟩

/-- The block at `pc`. -/
def blockAt (p : Prog) (one : Bool) (pc : BitVec 32) : Blk := gather p one 4096 pc

/-- translate.cpp 1264: the last byte of the instruction is on another page (DISAS_FLG_PAGE_CROSS). -/
def over (pc : BitVec 32) (n : Nat) : Bool := decide (pc &&& 0xFFFFF000#32 ≠ (pc + BitVec.ofNat 32 n - 1#32) &&& 0xFFFFF000#32)

/-- An instruction of the block at `pc` does that. -/
def anyOver : BitVec 32 → List (Insn × Nat) → Option (Jump × Nat × Bool) → Bool
  | pc, [], some (_, n, _) => over pc n
  | _, [], none => false
  | pc, (_, n) :: l, t => over pc n || anyOver (pc + BitVec.ofNat 32 n) l t

/-- The code cache. -/
abbrev Cache := List (BitVec 32 × Blk)

/-- One turn: is DISAS_FLG_ONE_INSTR set, which accesses the instructions of the block may make, which requests are pending after each of them and
at the block's end, and which blocks are dropped from the cache before it (purges, flushes, writes to other code). -/
structure Turn where
  one : Bool
  es : Nat → Env
  pend : Nat → BitVec 32
  last : BitVec 32
  drop : BitVec 32 → Bool

/-- translate.cpp 1511-1580: the block for `pc`, from the cache or translated, and the cache after it: a block with an instruction on two pages,
or of one instruction, is not kept. -/
def fetch (p : Prog) (t : Turn) (c : Cache) (pc : BitVec 32) : Blk × Cache :=
  let c1 := c.filter (fun x => !t.drop x.1)
  match c1.find? (fun x => x.1 == pc) with
  | some x => (x.2, c1)
  | none =>
    let b := blockAt p t.one pc
    (b, if t.one || anyOver pc b.l b.tail then c1 else (pc, b) :: c1)

/-- translate.cpp 1594-1603, tc_run_code: rcx, the first argument, is the address of cpu_ctx.  A link (jit.cpp 784-790) leaves it as it is, which is the
same (C100_block_partial). -/
def entered (ctx : BitVec 64) (h : St) : St := h.set .rcx ctx

/-- Running the block.  Without a jump at its end: the block was cut (`ends`), or nothing could be decoded after its last instruction, where the
code raises an exception (translate.cpp 1284-1327). -/
inductive KOut where
  | on (eip : BitVec 32) (h : St)
  | fault (eip : BitVec 32) (g : G)
  | int (eip : BitVec 32) (h : St)
  | undecoded (eip : BitVec 32) (h : St)
  | stuck

def KOut.ofJump : JBOut → KOut
  | .jumps eip h => .on eip h
  | .ends eip h => .on eip h
  | .fault eip g => .fault eip g
  | .int eip h => .int eip h
  | .stuck => .stuck
def KOut.ofEnd (c : Bool) : BOut → KOut
  | .ends eip h => if c then .on eip h else .undecoded eip h
  | .fault eip g => .fault eip g
  | .int eip h => .int eip h
  | .stuck => .stuck

/-- A cached block was translated with `one = false`, whatever DISAS_FLG_ONE_INSTR is now. -/
def runBlk (t : Turn) (one : Bool) (base pc : BitVec 32) (b : Blk) (h : St) : KOut :=
  match b.tail with
  | some (j, n, s) => .ofJump (runBasic t.es t.pend base one pc b.l n s j h)
  | none => .ofEnd (cut one pc b.l) (runBlock t.es t.pend 0 (layout base one pc b.l) (pc - base) h)

/-- jit.cpp 832-846: the check at the end of the block. -/
def KOut.check (t : Turn) : KOut → KOut
  | .on eip h => if (intCheck t.last h).1 then .int eip (intCheck t.last h).2 else .on eip (intCheck t.last h).2
  | o => o

/-- Is the block for `pc` in the cache? -/
def hit (t : Turn) (c : Cache) (pc : BitVec 32) : Bool := ((c.filter (fun x => !t.drop x.1)).find? (fun x => x.1 == pc)).isSome

/-- One turn at `eip`. -/
def turn (ctx : BitVec 64) (p : Prog) (base : BitVec 32) (t : Turn) (c : Cache) (eip : BitVec 32) (h : St) : KOut × Cache :=
  ((runBlk t (t.one && !hit t c (base + eip)) base (base + eip) (fetch p t c (base + eip)).1 (entered ctx h)).check t, (fetch p t c (base + eip)).2)

/-- Turn after turn, until an exception, an interrupt or the end of the schedule. -/
def turns (ctx : BitVec 64) (p : Prog) (base : BitVec 32) : List Turn → Cache → BitVec 32 → St → KOut × Cache
  | [], c, eip, h => (.on eip h, c)
  | t :: ts, c, eip, h =>
    match (turn ctx p base t c eip h).1 with
    | .on eip' h' => turns ctx p base ts (turn ctx p base t c eip h).2 eip' h'
    | o => (o, (turn ctx p base t c eip h).2)

end Verif.Emit
