import Verif.Model.EmitLink
/-
What the end of a block is to do, without host code.
-/
namespace Verif.Emit.Spec
open Host

/-- lib86cpu_priv.hpp 143-149: an element of the jump table, 24 bytes. -/
structure Entry where
  pc : BitVec 32
  csBase : BitVec 32
  flags : BitVec 32
  code : BitVec 64
def entryAt (m : HMem) (table : BitVec 64) (i : Nat) : Entry :=
  let a := table + BitVec.ofNat 64 (24 * i)
  ⟨hm32 m a, hm32 m (a + 4#64), hm32 m (a + 8#64), hm64 m (a + 16#64)⟩

/-- A request that may be served now: int_pending, the hardware interrupt (bit 9) only if IF (bit 9 of EFLAGS) is set. -/
def Served (pend eflags : BitVec 32) : Prop := ∃ i, i < 32 ∧ pend.getLsbD i = true ∧ (i = 9 → eflags.getLsbD 9 = true)

/-- The address the block goes on at. -/
def target (e : Env) (x : Lk) (h : Host.St) : Tgt → BitVec 32
  | .known pc => pc
  | .eip => e.seg 1 + x.eip
  | .ebx => (h.r .rbx).setWidth 32

/-- The code for `pc` in the current mode: that of the element for it, else the exit function of the block. -/
def Linked (e : Env) (x : Lk) (eflags pc : BitVec 32) (a : BitVec 64) : Prop :=
  let en := entryAt x.m (e.ctx + x.tbl) (pc.toNat % 4096)
  if en.pc = pc ∧ en.csBase = e.seg 1 ∧ en.flags = Tc.modeOf x.hfl eflags then a = en.code else a = hm64 x.m x.exitAt

/-- The time is over: cpu_timer_helper answers CPU_TIMEOUT_INT. -/
def Late (x : Lk) : Prop := x.timer &&& 0x10#32 ≠ 0#32

/-- A word pair of the return stack buffer says what an entry of Model/Tc.lean says; `addr` is the address of a block. -/
def Says (tcs : BitVec 64 → TcRec) (addr : Tc.Tc → BitVec 64) (exit : Tc.Tc → BitVec 64) (w : BitVec 64 × BitVec 64) (r : Tc.Rsb) : Prop :=
  r.off < 2 ^ 31 ∧ w.1.toNat = (if r.valid then 2 ^ 63 else 0) + r.off * 2 ^ 32 + r.target.toNat ∧
  match r.tc with
  | none => w.2 = 0#64
  | some t => w.2 = addr t ∧ addr t ≠ 0#64 ∧ tcs (addr t) = ⟨t.csBase, t.flags, exit t⟩

/-- The whole buffer. -/
def SaysAll (tcs : BitVec 64 → TcRec) (addr exit : Tc.Tc → BitVec 64) (r : Ring) (s : Tc.St) : Prop :=
  r.ptr = s.rsbPtr ∧ ∀ i, Says tcs addr exit (r.w i) (s.rsb i)

/-- The jump table in host memory says what that of Model/Tc.lean says; `code` is the address of a block's code. -/
def Holds (m : HMem) (table : BitVec 64) (code : Tc.Tc → BitVec 64) (s : Tc.St) : Prop :=
  ∀ i : BitVec 12, (entryAt m table i.toNat).pc = (s.jmp i).virt ∧ (entryAt m table i.toNat).csBase = (s.jmp i).csBase ∧
    (entryAt m table i.toNat).flags = (s.jmp i).flags ∧ ∀ t, (s.jmp i).tc = some t → (entryAt m table i.toNat).code = code t

end Verif.Emit.Spec
