import Verif.Model.Stack
/-
The instructions that make and undo stack frames: ENTER (core/emitter/x64/jit.cpp 5910-5993), PUSHA (9564-9632), POPA (9223-9320).

The running stack pointer in the host's EBX is the `esp` of a scratch state: gen_stack_push<false> (2248-2336) is `push` with
EBX in place of ESP.  The registers are indexed as the operands Zydis reports for PUSHA: EAX ECX EDX EBX ESP EBP ESI EDI; that it
reports them in this order (and for POPA the same without ESP) is assumed.
-/
namespace Verif.Stack
open Guest

/-- `MOVZX(EBX, SP)` or `MOV(EBX, ESP)`: 5921, 5932, 5940, 5948. -/
def startPtr (s : St) : BitVec 32 := if s.ss32 then s.esp else (s.esp.setWidth 16 : BitVec 16).setWidth 32

/-- 5960-5974: the loop that copies `n` frame pointers of the enclosing procedures, from number `i` on. The subtraction is done in
32 bits also on 16 bit stacks. -/
def displays (ok : Ok) (k : Nat) : Nat → Nat → St → Except St St
  | 0, _, v => .ok v
  | n + 1, i, v =>
    let e := (if v.ss32 then v.ebp else (v.ebp.setWidth 16 : BitVec 16).setWidth 32) - BitVec.ofNat 32 (k * i)
    if ok (addr v e) k false then
      match push ok v k (load v.mem (addr v e) k) with
      | none => .error v
      | some v' => displays ok k n (i + 1) v'
    else .error v

/-- 5958-5978: the display and the frame pointer `tmp` itself. -/
def nested (ok : Ok) (k nest : Nat) (tmp : BitVec 32) (v : St) : Except St St :=
  if nest = 0 then .ok v
  else match displays ok k (nest - 1) 1 v with
    | .error v => .error v
    | .ok v => match push ok v k (if k = 4 then tmp.toNat else tmp.toNat % 65536) with
      | none => .error v
      | some v => .ok v

/-- 5980-5992: allocation, the test that the new top can be written (gen_virtual_stack_push 2342-2391), and the update of ESP and EBP. -/
def allocate (ok : Ok) (s : St) (k size : Nat) (tmp : BitVec 32) (v : St) : Out :=
  let e : BitVec 32 := if s.ss32 then v.esp - BitVec.ofNat 32 size else ((v.esp.setWidth 16 : BitVec 16) - BitVec.ofNat 16 size).setWidth 32
  if ok (addr v e) k true then
    .done { v with esp := if s.ss32 then e else setLow s.esp (e.setWidth 16), ebp := setSized s.ebp k tmp.toNat }
  else .fault { v with esp := s.esp }

/-- 5958-5992, from the scratch state in which EBP was pushed. -/
def enterBody (ok : Ok) (s : St) (k size nest : Nat) (v : St) : Out :=
  match nested ok k nest v.esp v with
  | .error w => .fault { w with esp := s.esp }
  | .ok w => allocate ok s k size v.esp w

/-- jit.cpp 5910-5993: ENTER size, nest (already masked to 5 bits, 5913), operand size `k`. -/
def enter (ok : Ok) (s : St) (k size nest : Nat) : Out :=
  match push ok { s with esp := startPtr s } k s.ebp.toNat with
  | none => .fault s
  | some v1 =>
    enterBody ok s k size nest (if k = 4 ∧ s.ss32 = false then { v1 with esp := (s.esp &&& 0xFFFF0000#32) ||| v1.esp } else v1)

/-- The general registers; ESP and EBP are in `st`. -/
structure Gp where
  r : Nat → BitVec 32
  st : St

def Gp.get (g : Gp) (i : Nat) : BitVec 32 := if i = 4 then g.st.esp else if i = 5 then g.st.ebp else g.r i
def Gp.set (g : Gp) (i : Nat) (v : BitVec 32) : Gp :=
  if i = 5 then { g with st := { g.st with ebp := v } } else { g with r := fun j => if j = i then v else g.r j }

/-- The loop of PUSHA, 9570-9579: ESP itself is written only at the end, so the ESP pushed is the one before the instruction. -/
def pushaLoop (ok : Ok) (k : Nat) (g : Gp) : List Nat → St → Except St St
  | [], v => .ok v
  | i :: is, v => match push ok v k (if k = 4 then (g.get i).toNat else (g.get i).toNat % 65536) with
    | none => .error v
    | some v => pushaLoop ok k g is v

inductive GOut where
  | done (g : Gp)
  | fault (g : Gp)

/-- jit.cpp 9564-9632. -/
def pusha (ok : Ok) (g : Gp) (k : Nat) : GOut :=
  match pushaLoop ok k g [0, 1, 2, 3, 4, 5, 6, 7] g.st with
  | .error v => .fault { g with st := { v with esp := g.st.esp } }
  | .ok v => .done { g with st := v }

/-- `ADD(BX, 4)` / `ADD(EBX, 4)`. -/
def bump (s : St) (bx : BitVec 32) (k : Nat) : BitVec 32 :=
  if s.ss32 then bx + BitVec.ofNat 32 k else setLow bx ((bx.setWidth 16 : BitVec 16) + BitVec.ofNat 16 k)

/-- The loops of POPA, 9230-9248 and the same in the other three cases: each register is written as soon as it is loaded; the slot
of ESP (index 4) is skipped. -/
def popaLoop (ok : Ok) (k : Nat) : List Nat → BitVec 32 → Gp → Except Gp (BitVec 32 × Gp)
  | [], bx, g => .ok (bx, g)
  | i :: is, bx, g =>
    if i = 4 then popaLoop ok k is (bump g.st bx k) g
    else
      let e := if g.st.ss32 then bx else (bx.setWidth 16 : BitVec 16).setWidth 32
      if ok (addr g.st e) k false then
        popaLoop ok k is (bump g.st bx k) (g.set i (setSized (g.get i) k (load g.st.mem (addr g.st e) k)))
      else .error g

/-- jit.cpp 9223-9320. -/
def popa (ok : Ok) (g : Gp) (k : Nat) : GOut :=
  match popaLoop ok k [7, 6, 5, 4, 3, 2, 1, 0] g.st.esp g with
  | .error g => .fault g
  | .ok (bx, g) => .done { g with st := { g.st with esp := bx } }

end Verif.Stack
