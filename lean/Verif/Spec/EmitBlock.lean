import Verif.Spec.EmitEa
import Verif.Spec.EmitMore
import Verif.Spec.EmitShift
import Verif.Spec.EmitMov
import Verif.Spec.EmitStr
import Verif.Spec.EmitFlag
import Verif.Props.FlagInstr
import Verif.Props.Bcd
/-
Specification of a block: its instructions one after the other, each either doing what the architecture says (`Effect`) or, when an access it makes
is not allowed, faulting with nothing done (a string instruction: with the elements before it done); between them, an interrupt that is pending and not masked.  Nothing here mentions host code.
-/
namespace Verif.Emit.Spec
open Host Guest Flags.Spec
open Flags

/-- Destination and source of a two operand instruction whose r/m operand is `p`. -/
def dstOf (p : Opd) : Form → Opd
  | .rmR _ => p
  | .rRm d => .reg d
  | .rmImm _ => p
def srcOf (p : Opd) : Form → Opd
  | .rmR s => .reg s
  | .rRm _ => p
  | .rmImm v => .imm v

/-- The offset of an operand from its address. -/
def Opd.plus (n : Nat) : Opd → Opd
  | .mem a => .mem (a + BitVec.ofNat 32 n)
  | p => p

/-- The accesses an instruction makes are allowed (and BOUND finds its operand within the bounds; DIV and IDIV a divisor that is not zero and
a quotient that fits). -/
def Allowed (e : Env) (g : G) (p : Opd) : MemInsn → Prop
  | .alu o z f => allowed e z o.writes (dstOf p f) (srcOf p f) = true
  | .incDec _ z => allowed e z true p p = true
  | .neg z => allowed e z true p p = true
  | .not z => allowed e z true p p = true
  | .xadd z src => allowed e z true p (.reg src) = true
  | .xchg z src => allowed e z true p (.reg src) = true
  | .cmpxchg z src => allowed e z (p.get g z == rdG g z acc) p (.reg src) = true
  | .cmpxchg8b => allowed e .q true p p = true
  | .mul z => p.ok e z false = true
  | .imul1 z => p.ok e z false = true
  | .imul2 z _ => p.ok e z false = true
  | .imul3 z _ _ => p.ok e z false = true
  | .movx _ _ zs _ => p.ok e zs false = true
  | .bscan _ z _ => p.ok e z false = true
  | .setcc _ => p.ok e .b true = true
  | .cmovcc _ z _ => p.ok e z false = true
  | .bound z dst => p.ok e z false = true ∧ (p.plus z.bytes).ok e z false = true ∧
      (p.get g z).toInt ≤ (rdG g z dst).toInt ∧ (rdG g z dst).toInt ≤ ((p.plus z.bytes).get g z).toInt
  | .shift _ z n => count g n ≠ 0 → allowed e z true p p = true
  | .movRmR z _ => p.ok e z true = true
  | .movRRm z _ => p.ok e z false = true
  | .movToMoffs z => p.ok e z true = true
  | .movImm z _ => p.ok e z true = true
  | .movRmSel _ => p.ok e .w true = true
  | .movSelRm _ => False
  | .lea _ _ => True
  | .push s z => p.ok e z false = true ∧ e.ok (slot e (down s g z.bytes)) z.bytes true = true
  | .pop s z => e.ok (slot e (spOff s g)) z.bytes false = true ∧ p.ok e z true = true
  | .bit k z _ => p.ok e z false = true ∧ (k = 0 ∨ p.ok e z true = true)
  | .div sg z _ => p.ok e z false = true ∧ asInt sg (p.get g z) ≠ 0 ∧ fits sg z.bits ((dividend sg z g).tdiv (asInt sg (p.get g z)))

/-- What an instruction with the r/m operand `p` does: `g` before, `g'` after. -/
def Effect (e : Env) (g g' : G) (p : Opd) : MemInsn → Prop
  | .alu o z f =>
    SameButFlags (if o.writes then (dstOf p f).set g z (result o (flags g.fl).cf ((dstOf p f).get g z) ((srcOf p f).get g z)) else g) g' ∧
    FlagsAfter o (flags g.fl).cf ((dstOf p f).get g z) ((srcOf p f).get g z) (flags g'.fl)
  | .incDec inc z =>
    SameButFlags (p.set g z (if inc then p.get g z + 1#z.bits else p.get g z - 1#z.bits)) g' ∧
    flags g'.fl = { (if inc then addFlags (p.get g z) 1#z.bits false else subFlags (p.get g z) 1#z.bits false) with cf := (flags g.fl).cf }
  | .neg z => SameButFlags (p.set g z (0#z.bits - p.get g z)) g' ∧ flags g'.fl = subFlags 0#z.bits (p.get g z) false
  | .not z => g' = p.set g z (~~~p.get g z)
  | .xadd z src =>
    SameButFlags (p.set ((Opd.reg src).set g z (p.get g z)) z (p.get g z + rdG g z src)) g' ∧
    flags g'.fl = addFlags (p.get g z) (rdG g z src) false
  | .xchg z src => g' = p.set ((Opd.reg src).set g z (p.get g z)) z (rdG g z src)
  | .cmpxchg z src =>
    SameButFlags (if p.get g z = rdG g z acc then p.set g z (rdG g z src) else wrG g z acc (p.get g z)) g' ∧
    flags g'.fl = subFlags (p.get g z) (rdG g z acc) false
  | .cmpxchg8b =>
    (p.get g .q = g.gpr 2 ++ g.gpr 0 → SameButFlags (p.set g .q (g.gpr 1 ++ g.gpr 3)) g' ∧ flags g'.fl = { flags g.fl with zf := true }) ∧
    (p.get g .q ≠ g.gpr 2 ++ g.gpr 0 → g'.mem = (p.set g .q (p.get g .q)).mem ∧ g'.gpr 2 ++ g'.gpr 0 = p.get g .q ∧
      (∀ i, i ≠ 0 → i ≠ 2 → g'.gpr i = g.gpr i) ∧ g'.fl.eflags = g.fl.eflags ∧ flags g'.fl = { flags g.fl with zf := false })
  | .mul z => SameButFlags (setWide g z (prod false (rdG g z acc) (p.get g z))) g' ∧
      MulFlags false z.bits (prod false (rdG g z acc) (p.get g z)) (flags g'.fl)
  | .imul1 z => SameButFlags (setWide g z (prod true (rdG g z acc) (p.get g z))) g' ∧
      MulFlags true z.bits (prod true (rdG g z acc) (p.get g z)) (flags g'.fl)
  | .imul2 z dst => SameButFlags (wrG g z dst (BitVec.ofInt z.bits (prod true (p.get g z) (rdG g z dst)))) g' ∧
      MulFlags true z.bits (prod true (p.get g z) (rdG g z dst)) (flags g'.fl)
  | .imul3 z dst v => SameButFlags (wrG g z dst (BitVec.ofInt z.bits (prod true (p.get g z) (v.setWidth z.bits)))) g' ∧
      MulFlags true z.bits (prod true (p.get g z) (v.setWidth z.bits)) (flags g'.fl)
  | .movx sg zd zs dst => g' = wrG g zd dst (extend sg zd (p.get g zs))
  | .bscan rv z dst => ∃ v, SameButFlags (wrG g z dst v) g' ∧ ((flags g'.fl).zf = true ↔ p.get g z = 0#z.bits) ∧
      (p.get g z ≠ 0#z.bits → IsScan rv (p.get g z) v.toNat)
  | .setcc c => g' = p.set g .b (if c.spec.holds (flags g.fl) then 1#8 else 0#8)
  | .cmovcc c z dst => g' = if c.spec.holds (flags g.fl) then wrG g z dst (p.get g z) else g
  | .bound _ _ => g' = g
  | .shift k z n => (count g n = 0 → g' = g) ∧
      (count g n ≠ 0 → ∃ r, SameButFlags (p.set g z r) g' ∧ Shifted (p.get g z) (shSrc g z k) (count g n) (flags g.fl) r (flags g'.fl) k)
  | .movRmR z src => g' = p.set g z (rdG g z src)
  | .movRRm z dst => g' = wrG g z dst (p.get g z)
  | .movToMoffs z => g' = p.set g z (rdG g z acc)
  | .movImm z v => g' = p.set g z (v.setWidth z.bits)
  | .movRmSel s => match p with
    | .reg r => g' = wrG g .d r ((e.sel s).setWidth 32)
    | p => g' = p.set g .w (e.sel s)
  | .movSelRm _ => False
  | .lea z dst => match p with
    | .mem a => g' = wrG g z dst (a.setWidth z.bits)
    | _ => False
  | .push s z => SpAt s g g' (down s g z.bytes) (store g.mem (slot e (down s g z.bytes)) z.bytes (p.get g z).toNat)
  | .pop s z => ∃ g1, SpAt s g g1 (up s g z.bytes) g.mem ∧
      g' = p.set g1 z (BitVec.ofNat z.bits (load g.mem (slot e (spOff s g)) z.bytes))
  | .bit k z n => ∃ y : BitVec z.bits,
      (∀ j, j < z.bits → y.getLsbD j =
        if j = bitGiven g z n % z.bits then BitTest.Spec.newBit (bitOp k) ((p.get g z).getLsbD j) else (p.get g z).getLsbD j) ∧
      (flags g'.fl).cf = (p.get g z).getLsbD (bitGiven g z n % z.bits) ∧ (flags g'.fl).zf = (flags g.fl).zf ∧
      g'.fl.eflags = g.fl.eflags ∧ { g' with fl := g.fl } = if k = 0 then g else p.set g z y
  | .div sg z _ => g' = setDiv g z ((dividend sg z g).tdiv (asInt sg (p.get g z))) ((dividend sg z g).tmod (asInt sg (p.get g z)))

/-- `p` is the r/m operand in the state `g`. -/
def At (e : Env) (g : G) : Operand → Opd → Prop
  | .reg r, p => p = .reg r
  | .mem m, p => ∃ a, Address e g m a ∧ p = .mem a

/-- What the encoding, the segment registers and the deviations stated elsewhere (C98: POP to memory addressed by ESP; C102: IDIV with 16 or 32 bit operands and
bit tests of memory with the bit number in a register) leave: the operand sizes, a
register operand only where the instruction has that form, and flat segments where the emitter assumes them. -/
def Sizes (e : Env) : MemInsn → Prop
  | .alu _ z _ | .incDec _ z | .neg z | .xadd z _ | .cmpxchg z _ | .mul z | .imul1 z | .imul2 z _ | .imul3 z _ _ | .cmovcc _ z _ | .bound z _
  | .shift _ z _ => z ≠ .q
  | .push s z | .pop s z => (z = .w ∨ z = .d) ∧ FlatOk e s
  | .movSelRm _ => False
  | .bit _ z _ => z = .w ∨ z = .d
  | .div sg z _ => z ≠ .q ∧ (sg = true → z = .b)
  | _ => True
def memOnly : MemInsn → Bool
  | .cmpxchg8b | .bound _ _ | .movToMoffs _ | .lea _ _ => true
  | _ => false
def usesEsp (m : MemOp) : Bool :=
  match m.mode with
  | .moffs _ => false
  | .modrm o => o.base == some 4 || (o.index.map (·.1)) == some 4
def isPop : MemInsn → Bool
  | .pop _ _ => true
  | _ => false

def bitFromReg : MemInsn → Bool
  | .bit _ _ (.reg _) => true
  | _ => false

/-- An instruction the model's emitter can be given. -/
def Legal (e : Env) : Insn → Prop
  | .rm i (.reg _) => Sizes e i ∧ memOnly i = false
  | .rm i (.mem m) => Sizes e i ∧ Proper e m ∧ (isPop i = true → usesEsp m = false) ∧ bitFromReg i = false
  | .pushImm s z _ | .pushSel s z _ | .leave s z | .pusha s z | .popa s z => (z = .w ∨ z = .d) ∧ FlatOk e s
  | .str x => StrOk e x
  | .aam v => v ≠ 0#8
  | .pushf s z vme => ((z = .w ∨ z = .d) ∧ (vme = true → z = .w)) ∧ FlatOk e s
  | _ => True

/-- An instruction runs without a fault from `g`. -/
def Runs (e : Env) (g : G) : Insn → Prop
  | .rm i o => ∃ p, At e g o p ∧ Allowed e g p i
  | .pushImm s z _ | .pushSel s z _ | .pushf s z _ => e.ok (slot e (down s g z.bytes)) z.bytes true = true
  | .leave s z => e.ok (slot e ((g.gpr 5).toNat % spMod s)) z.bytes false = true
  | .pusha s z => ∀ i : Fin 8, e.ok (slot e (down s g (z.bytes * (i.val + 1)))) z.bytes true = true
  | .popa s z => ∀ i : Fin 8, i ≠ 4 → e.ok (slot e (up s g (z.bytes * (7 - i.val)))) z.bytes false = true
  | _ => True

/-- What it does then. -/
def Gives (e : Env) (g g' : G) : Insn → Prop
  | .rm i o => ∃ p, At e g o p ∧ Effect e g g' p i
  | .cbw => g' = wrG g .w acc (BitVec.ofInt 16 (rdG g .b acc).toInt)
  | .cwde => g' = wrG g .d acc (BitVec.ofInt 32 (rdG g .w acc).toInt)
  | .cwd => g' = wrG g .w edx (BitVec.ofInt 16 ((rdG g .w acc).toInt / 2 ^ 16))
  | .cdq => g' = wrG g .d edx (BitVec.ofInt 32 ((rdG g .d acc).toInt / 2 ^ 32))
  | .bswap i => ∃ v, g' = wrG g .d ⟨i, false⟩ v ∧ ∀ k < 4, (v >>> (8 * k)).setWidth 8 = (g.gpr i >>> (8 * (3 - k))).setWidth 8
  | .clc => SameButFlags g g' ∧ flags g'.fl = { flags g.fl with cf := false }
  | .stc => SameButFlags g g' ∧ flags g'.fl = { flags g.fl with cf := true }
  | .cmc => SameButFlags g g' ∧ flags g'.fl = { flags g.fl with cf := !(flags g.fl).cf }
  | .cld => g' = { g with fl := { g.fl with eflags := g.fl.eflags &&& ~~~0x400#32 } }
  | .std => g' = { g with fl := { g.fl with eflags := g.fl.eflags ||| 0x400#32 } }
  | .xchgAcc z r => g' = wrG (wrG g z acc (rdG g z r)) z r (rdG g z acc)
  | .pushImm s z v => SpAt s g g' (down s g z.bytes) (store g.mem (slot e (down s g z.bytes)) z.bytes (v.setWidth z.bits).toNat)
  | .pushSel s z i => SpAt s g g' (down s g z.bytes) (store g.mem (slot e (down s g z.bytes)) z.bytes ((e.sel i).setWidth z.bits).toNat)
  | .leave s z => ∃ g1, SpAt s g g1 (((g.gpr 5).toNat % spMod s + z.bytes) % spMod s) g.mem ∧
      g' = wrG g1 z ebp (BitVec.ofNat z.bits (load g.mem (slot e ((g.gpr 5).toNat % spMod s)) z.bytes))
  | .pusha s z => SpAt s g g' (down s g (z.bytes * 8)) g'.mem ∧
      (∀ i : Fin 8, load g'.mem (slot e (down s g (z.bytes * (i.val + 1)))) z.bytes = (rdG g z ⟨i, false⟩).toNat) ∧
      ∀ a, (∀ (i : Fin 8) b, b < z.bytes → a ≠ slot e (down s g (z.bytes * (i.val + 1))) + BitVec.ofNat 32 b) → g'.mem a = g.mem a
  | .popa s z => spOff s g' = up s g (z.bytes * 8) ∧ (s.ss32 = false → (g'.gpr 4).toNat / 2 ^ 16 = (g.gpr 4).toNat / 2 ^ 16) ∧
      g'.mem = g.mem ∧ g'.fl = g.fl ∧
      ∀ i : Fin 8, i ≠ 4 → g'.gpr i = (wrG g z ⟨i, false⟩ (BitVec.ofNat z.bits (load g.mem (slot e (up s g (z.bytes * (7 - i.val)))) z.bytes))).gpr i
  | .str x => StrDone e x g g'
  | .lahf => g' = wrG g .b highAcc (((readEflags g.fl).setWidth 8 &&& 0xD5#8) ||| 2#8)
  | .sahf => SameButFlags g g' ∧ flags g'.fl = sahfFlags (rdG g .b highAcc) (flags g.fl).of
  | .aaa =>
    let adj := decide (9 < (rdG g .b lowAcc).toNat % 16) || (flags g.fl).af
    let ax := (rdG g .b highAcc).toNat * 256 + (rdG g .b lowAcc).toNat + (if adj then 0x106 else 0)
    Adjusted g g' ∧ (rdG g' .b lowAcc).toNat = ax % 16 ∧ (rdG g' .b highAcc).toNat = ax / 256 % 256 ∧
      (flags g'.fl).af = adj ∧ (flags g'.fl).cf = adj
  | .aas =>
    let adj := decide (9 < (rdG g .b lowAcc).toNat % 16) || (flags g.fl).af
    let ax := (rdG g .b highAcc).toNat * 256 + (rdG g .b lowAcc).toNat
    Adjusted g g' ∧ (rdG g' .b lowAcc).toNat = (if adj then (ax + 65536 - 6) % 16 else ax % 16) ∧
      (rdG g' .b highAcc).toNat = (if adj then ((ax + 65536 - 6) / 256 + 255) % 256 else (rdG g .b highAcc).toNat) ∧
      (flags g'.fl).af = adj ∧ (flags g'.fl).cf = adj
  | .aad v => Adjusted g g' ∧ (rdG g' .b lowAcc).toNat = ((rdG g .b lowAcc).toNat + (rdG g .b highAcc).toNat * v.toNat) % 256 ∧
      rdG g' .b highAcc = 0#8 ∧ AlFlags g'
  | .aam v => Adjusted g g' ∧ (rdG g' .b lowAcc).toNat = (rdG g .b lowAcc).toNat % v.toNat ∧
      (rdG g' .b highAcc).toNat = (rdG g .b lowAcc).toNat / v.toNat ∧ AlFlags g'
  | .daaDas sum =>
    let t := (if sum then daaTab else dasTab) (rdG g .b lowAcc) (flags g.fl).af (flags g.fl).cf
    Adjusted g g' ∧ rdG g' .b lowAcc = t.1 ∧ rdG g' .b highAcc = rdG g .b highAcc ∧ (flags g'.fl).af = t.2.1 ∧ (flags g'.fl).cf = t.2.2 ∧ AlFlags g'
  | .pushf s z vme => ∃ v : BitVec z.bits, (∀ i, i < z.bits → v.getLsbD i = pushfBit z vme (readEflags g.fl) i) ∧
      SpAt s g g' (down s g z.bytes) (store g.mem (slot e (down s g z.bytes)) z.bytes v.toNat)

/-- The instructions that may have done something when they fault: XCHG with memory and LEAVE (defects, C82 and C98), PUSHA and POPA. -/
def restarts : Insn → Bool
  | .rm (.xchg _ _) (.mem _) | .leave _ _ | .pusha _ _ | .popa _ _ => false
  | _ => true

/-- An instruction faults in `g` and leaves `g'`: a string instruction at the first element it may not access, any other one before it has done anything,
unless it is one of those above. -/
def Faults (e : Env) (g g' : G) : Insn → Prop
  | .str x => StrFault e x g g'
  | i => ¬ Runs e g i ∧ (restarts i = true → g' = g) ∧ g'.fl = g.fl

/-- An interrupt request in `p` that is not the maskable one, or IF is set. -/
def Wanted (p : BitVec 32) (g : G) : Prop := ∃ k < 32, p.getLsbD k = true ∧ (k = 9 → g.fl.eflags.getLsbD 9 = true)

/-- How a block ends as the guest sees it. -/
inductive End where
  | ends (eip : BitVec 32) (g : G)
  | fault (eip : BitVec 32) (g : G)
  | int (eip : BitVec 32) (g : G)

/-- The instructions of a block from the `n`-th on, one after the other, from the state `g` with EIP `eip`. -/
inductive Seq (es : Nat → Env) (pend : Nat → BitVec 32) : Nat → List Item → BitVec 32 → G → End → Prop
  | done {n eip g} : Seq es pend n [] eip g (.ends eip g)
  | fault {n it l eip g g'} : Faults (es n) g g' it.insn → Seq es pend n (it :: l) eip g (.fault eip g')
  | int {n it l eip g g'} : Runs (es n) g it.insn → Gives (es n) g g' it.insn → it.check = true → Wanted (pend n) g' →
      Seq es pend n (it :: l) eip g (.int it.next g')
  | go {n it l eip g g' o} : Runs (es n) g it.insn → Gives (es n) g g' it.insn → ¬ (it.check = true ∧ Wanted (pend n) g') →
      Seq es pend (n + 1) l it.next g' o → Seq es pend n (it :: l) eip g o

/-- The guest's view of a block's end. -/
def Sees : BOut → End → Prop
  | .ends eip h, .ends eip' g => eip = eip' ∧ h.g = g
  | .fault eip g, .fault eip' g' => eip = eip' ∧ g = g'
  | .int eip h, .int eip' g => eip = eip' ∧ h.g = g
  | _, _ => False

end Verif.Emit.Spec
