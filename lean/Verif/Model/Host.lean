import Verif.Model.GuestMem
import Verif.Model.Shift
import Verif.Model.Div
/-
The host machine the emitter targets: the x64 instructions it emits for integer instructions, acting
on the host registers, the local variables of the translated block's stack frame, and the guest
state in cpu_ctx (core/emitter/x64/jit.cpp 275-335 locals, 367-440 instruction macros, 490-540 guest
register, memory and flag macros, 1843-1890 load_mem, 1979-2020 store_mem).

Simplifications: encoding by asmjit is not modelled; only the host registers the emitter uses for
integer code exist; the memory helpers are those of Model/GuestMem.lean (the build without the ipt,
jit.cpp 522-529).
-/
namespace Verif.Host
open Guest

/-- Host registers. -/
inductive Reg where
  | rax | rbx | rcx | rdx | r8 | r9 | r10 | r11
deriving DecidableEq, Repr

/-- Operand sizes, jit.cpp: SIZE8, SIZE16, SIZE32, SIZE64. -/
inductive Sz where
  | b | w | d | q
deriving DecidableEq, Repr

/-- Bits of an operand. -/
@[reducible] def Sz.bits : Sz → Nat
  | .b => 8 | .w => 16 | .d => 32 | .q => 64

/-- Bytes of an operand. -/
def Sz.bytes : Sz → Nat
  | .b => 1 | .w => 2 | .d => 4 | .q => 8

/-- The guest state integer instructions see: the eight registers in encoding order (EAX, ECX, EDX,
EBX, ESP, EBP, ESI, EDI), the flags, memory by linear address. -/
structure G where
  gpr : Fin 8 → BitVec 32
  fl : Flags.St
  mem : Mem

/-- A guest register operand: index, and whether it is one of AH, CH, DH, BH. -/
structure GReg where
  idx : Fin 8
  hi : Bool
deriving DecidableEq, Repr

/-- The host state.  `zf`, `cf`, `of`, `sf` are the host's flags. -/
structure St where
  r : Reg → BitVec 64
  loc : Nat → BitVec 64
  zf : Bool
  cf : Bool
  of : Bool
  sf : Bool
  g : G

/-- A flag of the host. -/
inductive F where
  | zf | cf | of | sf

/-- A memory operand: its linear address, and what computing it leaves in R10, R11 and the flags (Model/EmitEa.lean has the code that
computes it). -/
structure Ea where
  lin : BitVec 32
  r10 : BitVec 64
  r11 : BitVec 64
  fl : F → Bool

instance : CoeHead Ea (BitVec 32) := ⟨Ea.lin⟩

/-- What the environment decides: where cpu_ctx and the parity table in it are, which accesses are allowed, and what registers
and flags hold after a call or when an instruction leaves them undefined (any function of the state before it). -/
structure Env where
  ctx : BitVec 64
  par : BitVec 64
  ok : Ok
  hv : St → Reg → BitVec 64
  hf : St → F → Bool
  /-- the cached bases of ES, CS, SS, DS, FS, GS (no instruction of this model changes them) -/
  seg : Fin 6 → BitVec 32
  /-- their selectors -/
  sel : Fin 6 → BitVec 16

/-- Writing part of a 64 bit register: 8 and 16 bit writes keep the rest, 32 bit writes clear the
upper half. -/
def put : (z : Sz) → BitVec 64 → BitVec z.bits → BitVec 64
  | .b, o, v => (o &&& 0xFFFFFFFFFFFFFF00#64) ||| BitVec.setWidth 64 (w := 8) v
  | .w, o, v => (o &&& 0xFFFFFFFFFFFF0000#64) ||| BitVec.setWidth 64 (w := 16) v
  | .d, _, v => BitVec.setWidth 64 (w := 32) v
  | .q, _, v => v

/-- Read a register at a size. -/
def rd (h : St) (z : Sz) (r : Reg) : BitVec z.bits := (h.r r).setWidth z.bits

/-- Set the whole register. -/
def St.set (h : St) (r : Reg) (v : BitVec 64) : St := { h with r := fun x => if x = r then v else h.r x }

/-- Write a register at a size. -/
def wr (h : St) (z : Sz) (r : Reg) (v : BitVec z.bits) : St := h.set r (put z (h.r r) v)

/-- Set the host's flags. -/
def St.setF (h : St) (zf cf of sf : Bool) : St := { h with zf := zf, cf := cf, of := of, sf := sf }

/-- Set the guest state. -/
def St.setG (h : St) (g : G) : St := { h with g := g }

/-- Read a local variable at a size. -/
def rdL (h : St) (z : Sz) (i : Nat) : BitVec z.bits := (h.loc i).setWidth z.bits

/-- Write a local variable at a size. -/
def wrL (h : St) (z : Sz) (i : Nat) (v : BitVec z.bits) : St :=
  { h with loc := fun j => if j = i then put z (h.loc i) v else h.loc j }

/-- Source operand: register or immediate. -/
inductive Src where
  | reg (r : Reg)
  | imm (v : BitVec 64)

/-- The value of a source operand. -/
def Src.val (h : St) (z : Sz) : Src → BitVec z.bits
  | .reg r => rd h z r
  | .imm v => v.setWidth z.bits

/-- jit.cpp 490-503 (LD_REG_val and the like): read a guest register at a size. -/
def rdG (g : G) (z : Sz) (r : GReg) : BitVec z.bits :=
  if z = .b ∧ r.hi = true then (g.gpr r.idx >>> 8).setWidth z.bits else (g.gpr r.idx).setWidth z.bits

/-- The new value of the 32 bit register. -/
def putG : (z : Sz) → Bool → BitVec 32 → BitVec z.bits → BitVec 32
  | .b, true, o, v => (o &&& 0xFFFF00FF#32) ||| (BitVec.setWidth 32 (w := 8) v <<< 8)
  | .b, false, o, v => (o &&& 0xFFFFFF00#32) ||| BitVec.setWidth 32 (w := 8) v
  | .w, _, o, v => (o &&& 0xFFFF0000#32) ||| BitVec.setWidth 32 (w := 16) v
  | .d, _, _, v => v
  | .q, _, _, v => BitVec.setWidth 32 (w := 64) v

/-- jit.cpp 498-503 (ST_REG_val and the like): write a guest register at a size. -/
def wrG (g : G) (z : Sz) (r : GReg) (v : BitVec z.bits) : G :=
  { g with gpr := fun i => if i = r.idx then putG z r.hi (g.gpr r.idx) v else g.gpr i }

/-- The two-operand arithmetic instructions. -/
inductive Alu where
  | add | sub | and | or | xor
deriving DecidableEq, Repr

/-- Their results. -/
def Alu.eval {n : Nat} : Alu → BitVec n → BitVec n → BitVec n
  | .add, x, y => x + y
  | .sub, x, y => x - y
  | .and, x, y => x &&& y
  | .or, x, y => x ||| y
  | .xor, x, y => x ^^^ y

/-- Shifts and rotates by a count of 1 to 31. -/
inductive Sh where
  | shl | shr | sar
deriving DecidableEq, Repr

/-- Their results, `c` being the masked count. -/
def Sh.eval {n : Nat} (x : BitVec n) (c : Nat) : Sh → BitVec n
  | .shl => x <<< c
  | .shr => x >>> c
  | .sar => x.sshiftRight c

/-- The shifts and rotates whose flags are used: SHL, SHR, SAR; RCL, RCR, ROL, ROR; SHLD (`true`), SHRD. -/
inductive ShF where
  | sh (o : Flags.ShOp)
  | rot (o : Flags.RotOp)
  | dsh (left : Bool)

/-- Value, CF and OF for a count `k` other than zero; `c` is CF before. -/
def ShF.eval {n : Nat} (x y : BitVec n) (c : Bool) (k : Nat) (u : Flags.Undef n) : ShF → BitVec n × Bool × Bool
  | .sh o => Flags.hostShift o x k u
  | .rot o => Flags.hostRotate o x c k u
  | .dsh left => if left then Flags.hostShld x y k u else Flags.hostShrd x y k u

/-- The product of two operands of at most 32 bits. -/
def product {n : Nat} (signed : Bool) (a b : BitVec n) : BitVec 64 :=
  if signed then a.signExtend 64 * b.signExtend 64 else a.setWidth 64 * b.setWidth 64

/-- CF and OF of the host's multiplications: the upper half is significant. -/
def overflows (signed : Bool) (n : Nat) (p : BitVec 64) : Bool :=
  if signed then p != (p.setWidth n).signExtend 64 else p >>> n != 0

/-- BSF (least) and BSR (greatest) of a value: the number of a set bit. -/
def scan {n : Nat} (reverse : Bool) (x : BitVec n) : Option Nat :=
  (if reverse then (List.range n).reverse else List.range n).find? fun i => x.getLsbD i

/-- The conditions of SETcc and CMOVcc that are emitted. -/
inductive HC where
  | c | o | e | ne | l | g
deriving DecidableEq, Repr

/-- When they hold. -/
def HC.holds (h : St) : HC → Bool
  | .c => h.cf
  | .o => h.of
  | .e => h.zf
  | .ne => !h.zf
  | .l => h.sf != h.of
  | .g => !h.zf && (h.sf == h.of)

/-- The emitted host instructions. -/
inductive I where
  /-- MOV -/
  | mov (z : Sz) (d : Reg) (s : Src)
  /-- MOVZX to 32 bits -/
  | movzx (z : Sz) (d s : Reg)
  /-- MOVSX to 32 bits -/
  | movsx (z : Sz) (d s : Reg)
  /-- ADD, SUB, AND, OR, XOR -/
  | alu (o : Alu) (z : Sz) (d : Reg) (s : Src)
  /-- NOT (does not change flags) -/
  | not (z : Sz) (d : Reg)
  /-- NEG -/
  | neg (z : Sz) (d : Reg)
  /-- SHL, SHR with an immediate count below the width; only the result is used -/
  | sh (o : Sh) (z : Sz) (d : Reg) (c : Nat)
  /-- LEA d, [s + s] -/
  | lea2 (d s : Reg)
  /-- CMP -/
  | cmp (z : Sz) (d : Reg) (s : Src)
  /-- load a guest register -/
  | ldG (z : Sz) (d : Reg) (r : GReg)
  /-- store to a guest register -/
  | stG (z : Sz) (r : GReg) (s : Reg)
  /-- load the lazy flags' result word -/
  | ldRes (d : Reg)
  /-- load the lazy flags' auxiliary word -/
  | ldAux (d : Reg)
  /-- store the lazy flags' result word -/
  | stRes (s : Src)
  /-- store the lazy flags' auxiliary word -/
  | stAux (s : Src)
  /-- load a local variable -/
  | ldL (z : Sz) (d : Reg) (i : Nat)
  /-- store a local variable -/
  | stL (z : Sz) (i : Nat) (s : Reg)
  /-- LD_MEM, address in EDX, value to AL, AX, EAX or RAX -/
  | ldMem (z : Sz)
  /-- ST_MEM, address in EDX, value in R8 -/
  | stMem (z : Sz)
  /-- get_operand for a memory operand: the linear address to EDX; R10, R11 and the flags are changed -/
  | ea (a : Ea)
  /-- RELOAD_RCX_CTX -/
  | reload
  /-- MUL or IMUL with one operand -/
  | mul1 (signed : Bool) (z : Sz) (s : Reg)
  /-- IMUL d, a, b (two operands: `a` is `d`) -/
  | imul (z : Sz) (d : Reg) (a b : Src)
  /-- XCHG of two registers -/
  | xchg (z : Sz) (a b : Reg)
  /-- SETcc -/
  | setcc (c : HC) (d : Reg)
  /-- CMOVcc -/
  | cmov (c : HC) (z : Sz) (d s : Reg)
  /-- TEST: only ZF is used -/
  | test (z : Sz) (d s : Reg)
  /-- MOVSX or MOVZX from `zs` to `zd` -/
  | movx (signed : Bool) (zd zs : Sz) (d s : Reg)
  /-- MOVSX, MOVSXD or MOVZX from a guest register -/
  | ldGx (signed : Bool) (zd zs : Sz) (d : Reg) (r : GReg)
  /-- BSWAP of 32 bits -/
  | bswap (d : Reg)
  /-- BSF or BSR; the destination is undefined for a zero source -/
  | bs (reverse : Bool) (z : Sz) (d s : Reg)
  /-- LEA of the parity table in the guest's context -/
  | leaPar (d : Reg)
  /-- MOVZX from the parity table at `a`, indexed by `d` -/
  | ldPar (d a : Reg)
  /-- load, store the stored word of EFLAGS -/
  | ldEfl (d : Reg)
  | stEfl (s : Reg)
  /-- SHL, SHR, SAR, RCL, RCR, ROL, ROR, SHLD, SHRD by an immediate or, `none`, by CL; `s` is the source of the
  last two -/
  | shop (o : ShF) (z : Sz) (d s : Reg) (c : Option Nat)
  /-- LEA d, [b + x << n + v] of 32 bits -/
  | lea (d b : Reg) (x : Option (Reg × Nat)) (v : BitVec 32)
  /-- load, add the cached base of a segment register -/
  | ldSeg (d : Reg) (s : Fin 6)
  | addSeg (d : Reg) (s : Fin 6)
  /-- load a selector, with MOVZX to 32 bits (`true`) or MOV of 16 bits -/
  | ldSel (zx : Bool) (d : Reg) (s : Fin 6)
  /-- store an immediate to a guest register -/
  | stGi (z : Sz) (r : GReg) (v : BitVec 64)
  /-- MOVZX of byte `i` of the lazy flags' auxiliary (or result) word -/
  | ldFl8 (aux : Bool) (i : Nat) (d : Reg)
  /-- MOV of the parity table's address; MOVZX of the byte of the table at `a` indexed by `x` -/
  | movPar (d : Reg)
  | ldPar2 (d x a : Reg)
  /-- BT, BTC, BTR, BTS of a register, the bit number modulo the size -/
  | bt (k : Fin 4) (z : Sz) (d : Reg) (s : Src)
  /-- BT, BTC, BTR, BTS of a local variable, where a bit number in a register is not reduced: bits outside of the variable are other
  memory of the host -/
  | btL (k : Fin 4) (z : Sz) (i : Nat) (s : Src)
  /-- STC, CLC -/
  | setc (v : Bool)
  /-- LEA d, [x << n] of 32 bits -/
  | leaS (d x : Reg) (n : Nat)
  /-- TEST with an immediate -/
  | testI (z : Sz) (d : Reg) (v : BitVec 64)
  /-- DIV of 32 bits: EDX:EAX by a register; a divide error of the host ends the program -/
  | div (s : Reg)
  /-- store to a guest register through another register that holds the address of the guest's context -/
  | stGB (b : Reg) (z : Sz) (r : GReg) (s : Reg)
  /-- CALL of divb_helper, ..., idivd_helper (core/instructions.cpp 1345-1461): the divisor in DL, DX or EDX, EAX zero unless it asks for #DE -/
  | callDiv (signed : Bool) (z : Sz)
  /-- BR_UGT to the label after the next `n` instructions -/
  | ja (n : Nat)
  /-- BR_EQ to the label after the next `n` instructions -/
  | jeq (n : Nat)
  /-- BR_NE to the label after the next `n` instructions -/
  | jne (n : Nat)
  /-- BR_UNCOND to the label after the next `n` instructions -/
  | jmp (n : Nat)

/-- Outcome of one instruction or of a sequence: the next state, with the number of instructions to
skip; a page fault in a memory helper, which leaves the guest state as it is; or an access to the
guest's context while RCX does not point to it. -/
inductive Out where
  | next (k : Nat) (h : St)
  | fault (g : G)
  | stuck

/-- The Windows x64 calling convention (jit.cpp 176-200): a call preserves RBX and the locals of the
caller; RCX is reloaded by CALL_F (jit.cpp 561). -/
def clob (e : Env) (h : St) : St :=
  { h with r := fun x => if x = .rcx then e.ctx else if x = .rbx then h.r .rbx else e.hv h x
           zf := e.hf h .zf, cf := e.hf h .cf, of := e.hf h .of, sf := e.hf h .sf }

/-- Access the guest's context through RCX. -/
def ctxd (e : Env) (h : St) (k : Out) : Out := if h.r .rcx = e.ctx then k else .stuck

/-- The count of a shift or rotate: an immediate or CL, masked to five bits. -/
def hostCount (h : St) : Option Nat → Nat
  | some k => k % 32
  | none => (rd h .b .rcx).toNat % 32

/-- A shift or rotate of the host: the count is masked to five bits, nothing changes if it is zero; CF, OF and
the result are `e`'s choice where the SDM leaves them undefined. -/
def shopStep (e : Env) (h : St) (o : ShF) (z : Sz) (d s : Reg) (c : Option Nat) : Out :=
  let k := hostCount h c
  if z = .q then .stuck
  else if k = 0 then .next 0 h
  else
    let v := o.eval (rd h z d) (rd h z s) h.cf k ⟨e.hf h .cf, e.hf h .of, (e.hv h d).setWidth z.bits⟩
    .next 0 ((wr h z d v.1).setF (e.hf h .zf) v.2.1 v.2.2 (e.hf h .sf))

/-- BT, BTC, BTR, BTS: the value with bit `i` as it was, complemented, cleared, set. -/
def btVal {n : Nat} (k : Fin 4) (x : BitVec n) (i : Nat) : BitVec n :=
  match k with
  | 0 => x
  | 1 => x ^^^ BitVec.twoPow n i
  | 2 => x &&& ~~~ BitVec.twoPow n i
  | 3 => x ||| BitVec.twoPow n i

/-- The bit number of BT, BTC, BTR, BTS with a memory operand: one in a register is not reduced (a negative one is a large one here). -/
def btIdx (h : St) (z : Sz) : Src → Nat
  | .reg r => (rd h z r).toNat
  | .imm v => v.toNat % z.bits

/-- core/instructions.cpp 1345-1461: the helper that divides. -/
def divHelper (signed : Bool) (z : Sz) (eax edx : BitVec 32) (d : BitVec 64) : Div.Res :=
  match z, signed with
  | .b, false => Div.divb eax edx (d.setWidth 8)
  | .b, true => Div.idivb eax edx (d.setWidth 8)
  | .w, false => Div.divw eax edx (d.setWidth 16)
  | .w, true => Div.idivw eax edx (d.setWidth 16)
  | _, false => Div.divd eax edx (d.setWidth 32)
  | _, true => Div.idivd eax edx (d.setWidth 32)

/-- The call of it: RCX, too, is lost; a divide error of the host ends the program. -/
def callDiv (e : Env) (h : St) (signed : Bool) (z : Sz) : Out :=
  let c := (clob e h).set .rcx (e.hv h .rcx)
  match divHelper signed z (h.g.gpr 0) (h.g.gpr 2) (h.r .rdx) with
  | .ok a d => .next 0 ((wr c .d .rax 0#32).setG { h.g with gpr := fun i => if i = 0 then a else if i = 2 then d else h.g.gpr i })
  | .de => .next 0 (wr c .d .rax 1#32)
  | .ub => .stuck

/-- One host instruction. -/
def step (e : Env) (h : St) : I → Out
  | .mov z d s => .next 0 (wr h z d (s.val h z))
  | .movzx z d s => .next 0 (wr h .d d (BitVec.setWidth 32 (rd h z s)))
  | .movsx z d s => .next 0 (wr h .d d (BitVec.signExtend 32 (rd h z s)))
  | .alu o z d s =>
    let v := o.eval (rd h z d) (s.val h z)
    .next 0 ((wr h z d v).setF (v == 0) (e.hf h .cf) (e.hf h .of) (e.hf h .sf))
  | .not z d => .next 0 (wr h z d (~~~ rd h z d))
  | .neg z d => .next 0 ((wr h z d (- rd h z d)).setF (rd h z d == 0) (e.hf h .cf) (e.hf h .of) (e.hf h .sf))
  | .sh o z d c =>
    let v := o.eval (rd h z d) c
    .next 0 ((wr h z d v).setF (v == 0) (e.hf h .cf) (e.hf h .of) (e.hf h .sf))
  | .lea2 d s => .next 0 (wr h .d d (rd h .d s + rd h .d s))
  | .cmp z d s =>
    let a := rd h z d
    let b := s.val h z
    .next 0 (h.setF (a == b) (decide (a.toNat < b.toNat)) (decide ((a - b).toInt ≠ a.toInt - b.toInt)) (a - b).msb)
  | .ldG z d r => ctxd e h (.next 0 (wr h z d (rdG h.g z r)))
  | .stG z r s => ctxd e h (.next 0 (h.setG (wrG h.g z r (rd h z s))))
  | .ldRes d => ctxd e h (.next 0 (wr h .d d h.g.fl.res))
  | .ldAux d => ctxd e h (.next 0 (wr h .d d h.g.fl.aux))
  | .stRes s => ctxd e h (.next 0 (h.setG { h.g with fl := { h.g.fl with res := s.val h .d } }))
  | .stAux s => ctxd e h (.next 0 (h.setG { h.g with fl := { h.g.fl with aux := s.val h .d } }))
  | .ldL z d i => .next 0 (wr h z d (rdL h z i))
  | .stL z i s => .next 0 (wrL h z i (rd h z s))
  | .ldMem z => ctxd e h (
      let a : BitVec 32 := rd h .d .rdx
      if e.ok a z.bytes false then
        .next 0 (wr (clob e h) z .rax (BitVec.ofNat z.bits (load h.g.mem a z.bytes)))
      else .fault h.g)
  | .stMem z => ctxd e h (
      let a : BitVec 32 := rd h .d .rdx
      if e.ok a z.bytes true then
        .next 0 ((clob e h).setG { h.g with mem := store h.g.mem a z.bytes (rd h z .r8).toNat })
      else .fault h.g)
  | .ea a => .next 0 ((((wr h .d .rdx a.lin).set .r10 a.r10).set .r11 a.r11).setF (a.fl .zf) (a.fl .cf) (a.fl .of) (a.fl .sf))
  | .reload => .next 0 (h.set .rcx e.ctx)
  | .mul1 sg z s =>
    let p := product sg (rd h z .rax) (rd h z s)
    let v := overflows sg z.bits p
    let h1 := match z with
      | .b => wr h .w .rax (p.setWidth 16)
      | z => wr (wr h z .rax (p.setWidth z.bits)) z .rdx ((p >>> z.bits).setWidth z.bits)
    if z = .q then .stuck else .next 0 (h1.setF (e.hf h .zf) v v (e.hf h .sf))
  | .imul z d a b =>
    let p := product true (a.val h z) (b.val h z)
    let v := overflows true z.bits p
    if z = .q then .stuck else .next 0 ((wr h z d (p.setWidth z.bits)).setF (e.hf h .zf) v v (e.hf h .sf))
  | .xchg z a b => .next 0 (wr (wr h z a (rd h z b)) z b (rd h z a))
  | .setcc c d => .next 0 (wr h .b d (if c.holds h then 1#8 else 0#8))
  | .cmov c z d s => .next 0 (wr h z d (if c.holds h then rd h z s else rd h z d))
  | .test z d s => .next 0 (h.setF (rd h z d &&& rd h z s == 0) (e.hf h .cf) (e.hf h .of) (e.hf h .sf))
  | .movx sg zd zs d s => .next 0 (wr h zd d (if sg then (rd h zs s).signExtend zd.bits else (rd h zs s).setWidth zd.bits))
  | .ldGx sg zd zs d r => ctxd e h (.next 0 (wr h zd d
      (if sg then (rdG h.g zs r).signExtend zd.bits else (rdG h.g zs r).setWidth zd.bits)))
  | .bswap d =>
    let v : BitVec 32 := rd h .d d
    .next 0 (wr h .d d ((v <<< 24) ||| ((v &&& 0xFF00#32) <<< 8) ||| ((v >>> 8) &&& 0xFF00#32) ||| (v >>> 24)))
  | .bs rv z d s => match scan rv (rd h z s) with
    | none => .next 0 ((h.set d (e.hv h d)).setF true (e.hf h .cf) (e.hf h .of) (e.hf h .sf))
    | some i => .next 0 ((wr h z d (BitVec.ofNat z.bits i)).setF false (e.hf h .cf) (e.hf h .of) (e.hf h .sf))
  | .leaPar d => ctxd e h (.next 0 (h.set d e.par))
  | .ldPar d a => if h.r a = e.par ∧ (h.r d).toNat < 256
      then .next 0 (wr h .d d (Flags.parity ((h.r d).setWidth 8))) else .stuck
  | .ldEfl d => ctxd e h (.next 0 (wr h .d d h.g.fl.eflags))
  | .stEfl s => ctxd e h (.next 0 (h.setG { h.g with fl := { h.g.fl with eflags := rd h .d s } }))
  | .shop o z d s c => shopStep e h o z d s c
  | .lea d b x v =>
    let i : BitVec 32 := match x with
      | some (r, n) => rd h .d r <<< n
      | none => 0#32
    .next 0 (wr h .d d (rd h .d b + i + v))
  | .ldSeg d s => ctxd e h (.next 0 (wr h .d d (e.seg s)))
  | .addSeg d s => ctxd e h (
    let v : BitVec 32 := rd h .d d + e.seg s
    .next 0 ((wr h .d d v).setF (v == 0) (e.hf h .cf) (e.hf h .of) (e.hf h .sf)))
  | .ldSel zx d s => ctxd e h (.next 0 (if zx then wr h .d d ((e.sel s).setWidth 32) else wr h .w d (e.sel s)))
  | .stGi z r v => ctxd e h (.next 0 (h.setG (wrG h.g z r (v.setWidth z.bits))))
  | .ldFl8 aux i d => ctxd e h (
    let v : BitVec 32 := if aux then h.g.fl.aux else h.g.fl.res
    .next 0 (wr h .d d ((v >>> (8 * i)) &&& 0xFF#32)))
  | .movPar d => .next 0 (h.set d e.par)
  | .ldPar2 d x a => if h.r a = e.par ∧ (h.r x).toNat < 256
      then .next 0 (wr h .d d (Flags.parity ((h.r x).setWidth 8))) else .stuck
  | .bt k z d s =>
    let i := (s.val h z).toNat % z.bits
    .next 0 { (if k = 0 then h else wr h z d (btVal k (rd h z d) i)) with cf := (rd h z d).getLsbD i, of := e.hf h .of, sf := e.hf h .sf }
  | .btL k z l s =>
    if btIdx h z s < z.bits then
      .next 0 { wrL h z l (btVal k (rdL h z l) (btIdx h z s)) with cf := (rdL h z l).getLsbD (btIdx h z s), of := e.hf h .of, sf := e.hf h .sf }
    else .stuck
  | .setc v => .next 0 { h with cf := v }
  | .leaS d x n => .next 0 (wr h .d d (rd h .d x <<< n))
  | .testI z d v => .next 0 (h.setF (rd h z d &&& v.setWidth z.bits == 0) (e.hf h .cf) (e.hf h .of) (e.hf h .sf))
  | .div s =>
    let n : BitVec 64 := ((rd h .d .rdx : BitVec 32) ++ (rd h .d .rax : BitVec 32))
    let d : BitVec 64 := (rd h .d s : BitVec 32).setWidth 64
    if d = 0#64 ∨ 2 ^ 32 ≤ n.toNat / d.toNat then .stuck
    else .next 0 ((wr (wr h .d .rax ((n / d).setWidth 32)) .d .rdx ((n % d).setWidth 32)).setF (e.hf h .zf) (e.hf h .cf) (e.hf h .of) (e.hf h .sf))
  | .stGB b z r s => if h.r b = e.ctx then .next 0 (h.setG (wrG h.g z r (rd h z s))) else .stuck
  | .callDiv sg z => ctxd e h (callDiv e h sg z)
  | .ja n => .next (if !h.cf && !h.zf then n else 0) h
  | .jeq n => .next (if h.zf then n else 0) h
  | .jne n => .next (if h.zf then 0 else n) h
  | .jmp n => .next n h

/-- A sequence of instructions, the first `k` of which are skipped. -/
def run (e : Env) : Nat → List I → St → Out
  | k, [], h => .next k h
  | k + 1, _ :: l, h => run e k l h
  | 0, i :: l, h => match step e h i with
    | .next k h' => run e k l h'
    | .fault g => .fault g
    | .stuck => .stuck

end Verif.Host
