import Verif.Model.EmitIo
import Verif.Spec.EmitStr
/-
Specification of the port instructions on the guest state and the accesses that reach the ports.
-/
namespace Verif.Emit.Spec
open Host

/-- The calls of the memory helpers leave R10 and R11 as they are (they need not, see C62). -/
def KeepsR (e : Env) : Prop := ∀ h, e.hv h .r10 = h.r .r10 ∧ e.hv h .r11 = h.r .r11

/-- `c` is the decision about an access of `k` bytes to `port`: no check at all, or the check of the permission bitmap of C62, for some contents of
R10 and R11 which are those intended if the calls keep them. -/
def Decides (e : Env) (d : Dev) (chk : Bool) (m : Guest.Mem) (port : BitVec 16) (k : Nat) (c : IoBitmap.Out) : Prop :=
  if chk then ∃ r10 r11, (KeepsR e → r10 = d.base + 102#32 ∧ r11 = d.limit) ∧ c = IoBitmap.check e.ok m d.base d.limit port k r10 r11
  else c = .allow

/-- The port an IN or OUT names. -/
def portOf (x : IoInsn) (g : G) : BitVec 16 := match x.port with
  | some p => BitVec.ofNat 16 p.toNat
  | none => BitVec.ofNat 16 (g.gpr 2).toNat

/-- IN or OUT completes: one access of the size of the operand to the port, the accumulator's low bytes are what was read, or what is written. -/
def IoDone (d : Dev) (x : IoInsn) (g g' : G) (t t' : List Ev) : Prop :=
  let k := 256 ^ x.z.bytes
  let p := portOf x g
  if x.inp then
    t' = t ++ [.rd x.z p (d.inp t x.z p % k)] ∧ (g'.gpr 0).toNat = (g.gpr 0).toNat / k * k + d.inp t x.z p % k ∧
      (∀ i, i ≠ 0 → g'.gpr i = g.gpr i) ∧ g'.fl = g.fl ∧ g'.mem = g.mem
  else t' = t ++ [.wr x.z p ((g.gpr 0).toNat % k)] ∧ g' = g

/-- The port of INS and OUTS. -/
def dx (g : G) : BitVec 16 := BitVec.ofNat 16 (g.gpr 2).toNat

/-- Distance to the next element: DF is bit 10 of EFLAGS. -/
def ioStride (x : IoStr) (g : G) : Int := if g.fl.eflags.getLsbD 10 then -(x.z.bytes : Int) else x.z.bytes

/-- The number an INS reads next, and the one an OUTS writes next. -/
def inNum (d : Dev) (x : IoStr) (g : G) (t : List Ev) : Nat := d.inp t x.z (dx g) % 256 ^ x.z.bytes
def outNum (e : Env) (x : IoStr) (g : G) : Nat := StringOps.Spec.num g.mem (StringOps.Spec.at_ x.a32 (e.seg x.seg) (g.gpr 6)) x.z.bytes
/-- The element in memory: linear address; whether it may be accessed. -/
def elemAt (e : Env) (x : IoStr) (g : G) : BitVec 32 :=
  if x.inp then StringOps.Spec.at_ x.a32 (e.seg 0) (g.gpr 7) else StringOps.Spec.at_ x.a32 (e.seg x.seg) (g.gpr 6)
def memMay (e : Env) (x : IoStr) (g : G) : Bool := e.ok (elemAt e x g) x.z.bytes x.inp

/-- The access of the next element. -/
def access (e : Env) (d : Dev) (x : IoStr) (g : G) (t : List Ev) : Ev :=
  if x.inp then .rd x.z (dx g) (inNum d x g t) else .wr x.z (dx g) (outNum e x g)

/-- One element of INS or OUTS. -/
def IoElem (e : Env) (d : Dev) (x : IoStr) (g g' : G) (t : List Ev) : Prop :=
  Decides e d x.chk g.mem (dx g) x.z.bytes .allow ∧ d.watch x.z (dx g) = false ∧ memMay e x g = true ∧ g'.fl = g.fl ∧
  if x.inp then
    StringOps.Spec.Stored g.mem g'.mem (elemAt e x g) x.z.bytes (inNum d x g t) ∧
      StringOps.Spec.Moves x.a32 (ioStride x g) (g.gpr 7) (g'.gpr 7) ∧ ∀ i, i ≠ 7 → g'.gpr i = g.gpr i
  else
    g'.mem = g.mem ∧ StringOps.Spec.Moves x.a32 (ioStride x g) (g.gpr 6) (g'.gpr 6) ∧ ∀ i, i ≠ 6 → g'.gpr i = g.gpr i

/-- One less in the count register; everything else stays. -/
def IoCounted (a32 : Bool) (g g' : G) : Prop :=
  StringOps.Spec.Moves a32 (-1) (g.gpr 1) (g'.gpr 1) ∧ (∀ i, i ≠ 1 → g'.gpr i = g.gpr i) ∧ g'.fl = g.fl ∧ g'.mem = g.mem

/-- `n` repetitions, from `g` and the accesses `t` to `g'` and `t'`: each makes one access to the port. -/
inductive IoReps (e : Env) (d : Dev) (x : IoStr) : Nat → G → List Ev → G → List Ev → Prop
  | zero (g : G) (t : List Ev) : IoReps e d x 0 g t g t
  | more {n : Nat} {g g1 g2 g' : G} {t t' : List Ev} : IoElem e d x g g1 t → IoCounted x.a32 g1 g2 →
      IoReps e d x n g2 (t ++ [access e d x g t]) g' t' → IoReps e d x (n + 1) g t g' t'

/-- The number in the count register. -/
def ioCount (a32 : Bool) (g : G) : Nat := (g.gpr 1).toNat % StringOps.Spec.size a32

/-- Why the next element may not be done: #GP if the bitmap does not allow it, #DB for a breakpoint, a page fault when the bitmap or the memory may
not be accessed. -/
def Refused (e : Env) (d : Dev) (x : IoStr) (g : G) (w : Why) : Prop :=
  match w with
  | .gp => Decides e d x.chk g.mem (dx g) x.z.bytes .gp
  | .db => Decides e d x.chk g.mem (dx g) x.z.bytes .allow ∧ d.watch x.z (dx g) = true
  | .pf => Decides e d x.chk g.mem (dx g) x.z.bytes .pf ∨ memMay e x g = false

/-- The instruction completes. -/
def IoStrDone (e : Env) (d : Dev) (x : IoStr) (g g' : G) (t t' : List Ev) : Prop :=
  if x.rep then IoReps e d x (ioCount x.a32 g) g t g' t'
  else IoElem e d x g g' t ∧ t' = t ++ [access e d x g t]

/-- The instruction stops at an element, all before it being complete, nothing of it being done; the count register says how many are left. -/
def IoStrStops (e : Env) (d : Dev) (x : IoStr) (g g' : G) (t t' : List Ev) (w : Why) : Prop :=
  Refused e d x g' w ∧
  if x.rep then ∃ n, n < ioCount x.a32 g ∧ ioCount x.a32 g' = ioCount x.a32 g - n ∧ IoReps e d x n g t g' t'
  else g' = g ∧ t' = t

/-- As IoStrStops, but the port was read for the element that could not be stored. -/
def ReadLost (e : Env) (d : Dev) (x : IoStr) (g g' : G) (t t' : List Ev) : Prop :=
  x.inp = true ∧ memMay e x g' = false ∧ ∃ t1, t' = t1 ++ [access e d x g' t1] ∧ IoStrStops e d x g g' t t1 .pf

end Verif.Emit.Spec
