/-
Guest time stamp counter and the cpu_run_until timer: core/linux/clock.cpp 12-54, support.cpp 93-172
(tsc part of cpu_save_state/cpu_load_state, muldiv128), lib86cpu_priv.hpp 240-249,
interface.cpp 291-325 (cpu_run, cpu_run_until, cpu_set_timeout), core/translate.cpp 1634-1705
(cpu_start) and 1480-1592 (cpu_main_loop), core/instructions.cpp 1496-1521 (hlt_helper),
core/emitter/x64/jit.cpp 811-846 (gen_timeout_check, gen_no_link_checks), 866-893
(gen_raise_exp_inline), 909-941 (gen_check_rf_single_step), 944-1056 (block linking, gen_rsb_push,
gen_rsb_pop), 6641-6670 (HLT), core/helpers.cpp 278-322 (rsb_push, rsb_pop).

Host clock readings (get_current_time, CLOCK_MONOTONIC_RAW in microseconds) are inputs. The Windows
clock is not modelled. The debugger, suspension (see Threads) and trampolines (nested main loops) are
not part of this model.
-/
namespace Verif.Clock

/-- lib86cpu_priv.hpp 240-244. -/
structure Tsc where
  offset : BitVec 64
  last : BitVec 64
  deriving DecidableEq, Repr

/-- support.cpp 158-172: `(__uint128_t)a * b / c`, returned as uint64_t. The product of two 64 bit
numbers fits in 128 bits, so it is exact. -/
def muldiv128 (a b c : BitVec 64) : BitVec 64 := BitVec.ofNat 64 (a.toNat * b.toNat / c.toNat)

/-- clock.cpp 28-34: the 64 bit value put in EDX:EAX at host time `now`. -/
def rdtsc (t : Tsc) (now : BitVec 64) : BitVec 64 :=
  muldiv128 (now - t.last) 733333333#64 1000000#64 + t.offset

/-- clock.cpp 32-33: EDX and EAX. -/
def edxEax (v : BitVec 64) : BitVec 32 × BitVec 32 := ((v >>> 32).setWidth 32, v.setWidth 32)

/-- clock.cpp 20-25, called by cpu_reset (translate.cpp 425): the offset is not touched. -/
def tscReset (t : Tsc) (now : BitVec 64) : Tsc := { t with last := now }

/-- support.cpp 108-111: the snapshot's tsc_offset, put together from EDX and EAX. -/
def tscSave (t : Tsc) (now : BitVec 64) : BitVec 64 :=
  let (edx, eax) := edxEax (rdtsc t now)
  (edx.setWidth 64 <<< 32) ||| eax.setWidth 64

/-- support.cpp 139-140. -/
def tscLoad (_ : Tsc) (v now : BitVec 64) : Tsc := ⟨v, now⟩

/-- What happens to the counter, with the host time it happens at. -/
inductive TscOp
  | reset | take | restore (snapshot : BitVec 64) | read
  deriving Repr

def tscStep (t : Tsc) (op : TscOp) (now : BitVec 64) : Tsc :=
  match op with
  | .reset => tscReset t now
  | .take => t
  | .restore v => tscLoad t v now
  | .read => t

/-- lib86cpu_priv.hpp 245-249. -/
structure Timer where
  last : BitVec 64
  timeout : BitVec 64
  deriving DecidableEq, Repr

/-- clock.cpp 42-53: is the timeout reached? -/
def timerFires (t : Timer) (now : BitVec 64) : Bool := decide ((now - t.last).toNat ≥ t.timeout.toNat)

/-- How a translated block ends. `linked`: it ends with gen_no_link_checks (jumps, page ends: jit.cpp
851-857, 951, 8034). `call`: a CALL, the same with a push to the return stack buffer (996-1002).
`ret`: RET, IRET or the end of a hook (1043-1056). `raises`: it ends by raising an exception (jit.cpp
866-893: INT n, undefined instructions, ...). `stepping`: translated with TF or single step active,
gen_check_rf_single_step ends it before the timer check (jit.cpp 912-936). `hlt`: HLT (jit.cpp 6659-6667). -/
inductive Kind | linked | call | ret | raises | stepping | hlt
  deriving DecidableEq, Repr

/-- A translated block: `timer`, was the timer check emitted? -/
structure Block where
  kind : Kind
  timer : Bool
  deriving DecidableEq, Repr

/-- jit.cpp 814 and 6660: the check is emitted if CPU_TIMEOUT is set at translation time. -/
def translate (timeoutFlag : Bool) (k : Kind) : Block :=
  ⟨k, timeoutFlag && (k == .linked || k == .call || k == .ret || k == .hlt)⟩

/-- What cpu_do_int reports to hlt_helper. -/
inductive Poll | nothing | other | hw
  deriving DecidableEq, Repr

/-- instructions.cpp 1496-1521. `none`: the schedule ended while still waiting. `some (halted, exit)`:
the loop ended, leaving is_halted and exit_requested so (a timeout seen together with a hardware
interrupt wakes the cpu and requests the exit). -/
def hltLoop (t : Timer) (check : Bool) : List (Poll × BitVec 64) → Option (Bool × Bool)
  | [] => none
  | (p, now) :: l =>
    let fired := check && timerFires t now
    if p = .hw then some (false, fired)
    else if fired then some (true, true)
    else hltLoop t check l

/-- One step of the main loop: which cached or new block runs, and what it sees. `cached i` runs the
block at position `i` of the cache. `fresh k` translates a block of kind `k`. -/
inductive Pick | cached (i : Nat) | fresh (k : Kind)
  deriving DecidableEq, Repr

/-- Where a block that ends without an exception goes. `interrupt`: an interrupt is pending, it leaves
through m_exit_int before the timer check (jit.cpp 785-810, 859-863). Otherwise what the jump table or
the return stack buffer says: `hit`, straight on to another block; `noCode`, the buffer's entry matches
but has no code (helpers.cpp 290-322); `miss`, back to the main loop. -/
inductive Next | hit | noCode | miss | interrupt
  deriving DecidableEq, Repr

/-- `now`: the clock reading of the block's timer check. `polls`: what HLT sees while waiting. `next`:
where it goes. `lost`: entries of the return stack buffer flushed with their page since the last block. -/
structure Run where
  pick : Pick
  now : BitVec 64
  polls : List (Poll × BitVec 64)
  next : Next
  lost : Nat

/-- The part of cpu_t involved. `direct`: the last block went on to the next one without passing
through the main loop. `rsb`: valid entries of the return stack buffer (lib86cpu_priv.hpp 32, 235). -/
structure Cpu where
  timeoutFlag : Bool
  exitReq : Bool
  halted : Bool
  timer : Timer
  cache : List Block
  direct : Bool
  rsb : Nat
  deriving DecidableEq, Repr

/-- A new cpu. -/
def create : Cpu := ⟨false, false, false, ⟨0#64, 0#64⟩, [], false, 0⟩

/-- Outcome of a run. -/
inductive Status
  /-- cpu_run_until returned lc86_status::timeout -/
  | timeout
  /-- rejected: lc86_status::invalid_parameter -/
  | invalid
  /-- the given schedule ended and the emulation is still running -/
  | running
  deriving DecidableEq, Repr

/-- translate.cpp 1504-1592 and the block's own code: the block chosen, translated and cached if it
is new, then run. -/
def pickBlock (c : Cpu) : Pick → Option (Cpu × Block)
  | .cached i => (c.cache[i]?).map (fun b => (c, b))
  | .fresh k => let b := translate c.timeoutFlag k
                some ({ c with cache := c.cache ++ [b] }, b)

/-- helpers.cpp 278-288, rsb_push: a full buffer loses its oldest entry. -/
def pushed (c : Cpu) : Cpu := { c with rsb := min 64 (c.rsb + 1) }

/-- jit.cpp 812-829: the timer check. -/
def checked (c : Cpu) (b : Block) (now : BitVec 64) : Cpu :=
  { c with exitReq := c.exitReq || (b.timer && timerFires c.timer now) }

/-- jit.cpp 944-1009: a jump. A timeout leaves the block, otherwise the jump table decides. -/
def jumpEnd (c : Cpu) (b : Block) (now : BitVec 64) (next : Next) : Cpu :=
  { checked c b now with direct := next == .hit && !(b.timer && timerFires c.timer now) }

/-- jit.cpp 1043-1056: a return. After a timeout the code jumps to `m_rsb_push_pop` (819-823), which
is bound in front of gen_rsb_pop: rax is overwritten with the prediction, so the exit function is not
reached unless there is none. A hit takes an entry from the buffer, a miss empties it. -/
def retEnd (c : Cpu) (b : Block) (now : BitVec 64) (next : Next) : Cpu :=
  match next, c.rsb with
  | .hit, n + 1 => { checked c b now with direct := true, rsb := n }
  | .noCode, n + 1 => { checked c b now with direct := false, rsb := n }
  | _, _ => { checked c b now with direct := false, rsb := 0 }

/-- The end of a block that is no HLT. Exceptions and interrupts push an entry without code
(translate.cpp 969) and go back to the main loop. A CALL pushes its return address, on a timeout too. -/
def blockEnd (c : Cpu) (b : Block) (r : Run) : Cpu :=
  match b.kind, r.next with
  | .raises, _ | .stepping, _ | _, .interrupt => { pushed c with direct := false }
  | .call, n => jumpEnd (pushed c) b r.now n
  | .ret, n => retEnd c b r.now n
  | _, n => jumpEnd c b r.now n

/-- The block's end: timer check (clock.cpp 42-53) or the HLT wait. `none`: still waiting in HLT when
the schedule ended. -/
def runBlock (c : Cpu) (b : Block) (r : Run) : Option Cpu :=
  match b.kind with
  | .hlt =>
    match hltLoop c.timer b.timer r.polls with
    | none => none
    | some (h, e) => some { c with halted := h, exitReq := c.exitReq || e, direct := false }
  | _ => some (blockEnd { c with rsb := c.rsb - r.lost } b r)

/-- cpu_main_loop with the condition of cpu_run_until (translate.cpp 1685), which is looked at when
the last block went back to the main loop. `untilTime = false` is the loop of cpu_run (1672), whose
condition is always true. -/
def mainLoop (untilTime : Bool) : Cpu → List Run → Cpu × Status
  | c, [] => if untilTime && c.exitReq && !c.direct then (c, .timeout) else (c, .running)
  | c, r :: l =>
    if untilTime && c.exitReq && !c.direct then (c, .timeout)
    else
      match pickBlock c r.pick with
      | none => (c, .running)
      | some (c1, b) =>
        match runBlock c1 b r with
        | none => (c1, .running)
        | some c2 => mainLoop untilTime c2 l

/-- The blocks that loop runs, in order, each with what it sees. -/
def ran (untilTime : Bool) : Cpu → List Run → List (Block × Run)
  | _, [] => []
  | c, r :: l =>
    if untilTime && c.exitReq && !c.direct then []
    else
      match pickBlock c r.pick with
      | none => []
      | some (c1, b) =>
        match runBlock c1 b r with
        | none => [(b, r)]
        | some c2 => (b, r) :: ran untilTime c2 l

/-- interface.cpp 307-312 and translate.cpp 1654-1687: the cpu as the call's loop finds it. -/
def armed (c : Cpu) (timeout now : BitVec 64) : Cpu :=
  { c with timeoutFlag := true, exitReq := false, timer := ⟨now, timeout⟩, direct := false }

/-- interface.cpp 307-312 and translate.cpp 1654-1687. `now`: the reading of cpu_timer_set_now;
`polls`: what the wait of a cpu that was left halted sees. -/
def runUntil (c : Cpu) (timeout now : BitVec 64) (polls : List (Poll × BitVec 64)) (l : List Run) : Cpu × Status :=
  let c1 := armed c timeout now
  if c1.halted then
    match hltLoop c1.timer true polls with
    | none => (c1, .running)
    | some (true, e) => ({ c1 with exitReq := e }, .timeout)
    | some (false, e) => mainLoop true { c1 with halted := false, exitReq := e } l
  else mainLoop true c1 l

/-- interface.cpp 291-299, translate.cpp 1671-1673: runs until cpu_exit, modelled as the end of the
schedule. -/
def runForever (c : Cpu) (l : List Run) : Cpu × Status :=
  if c.timeoutFlag then (c, .invalid) else mainLoop false { c with direct := false } l

/-- The emulation calls a user makes. -/
inductive Call
  | run (l : List Run)
  | runUntil (timeout now : BitVec 64) (polls : List (Poll × BitVec 64)) (l : List Run)

def call (c : Cpu) : Call → Cpu
  | .run l => (runForever c l).1
  | .runUntil t now polls l => (runUntil c t now polls l).1

def calls (c : Cpu) (l : List Call) : Cpu := l.foldl call c

end Verif.Clock
