import Verif.Model.GuestMem
import Verif.Model.Flags
import Verif.Spec.BitTest
/-
BT, BTC, BTR, BTS: core/emitter/x64/jit.cpp 3681-3758 (`bit`), with the host's bit instructions
(SDM) as the emitted code uses them.
-/
namespace Verif.BitTest
open Guest Spec

/-- The host's BT/BTC/BTR/BTS on a register, or on memory with an immediate offset: the offset is
taken modulo the operand size. CF and the new value. -/
def hostBit {n : Nat} (op : Op) (x : BitVec n) (off : Nat) : Bool × BitVec n :=
  let i := off % n
  (x.getLsbD i,
   match op with
   | .bt => x
   | .btc => x ^^^ (1#n <<< i)
   | .btr => x &&& ~~~(1#n <<< i)
   | .bts => x ||| (1#n <<< i))

/-- jit.cpp 3755-3757: MOVZX, SHL by 31 and store to the aux word; the result word is not written. -/
def setCf (s : Flags.St) (c : Bool) : Flags.St :=
  { s with aux := (if c then 1#32 else 0#32) <<< 31 }

/-- jit.cpp 3719-3732: register destination; the offset is a register or an immediate. -/
def bitReg {n : Nat} (op : Op) (s : Flags.St) (x : BitVec n) (off : Nat) : BitVec n × Flags.St :=
  let r := hostBit op x off
  (r.2, setCf s r.1)

/-- Outcome of the memory form: completed, page fault, or an access of the host's BT outside the
stack slot the operand was copied to (memory that is not the guest's). -/
inductive Out where
  | done (m : Mem) (s : Flags.St)
  | fault
  | hostOob

/-- jit.cpp 3733-3753 and 3708-3713: the `k` byte operand is copied to a stack slot, the host
instruction works on the slot, and the slot is written back unless the instruction is BT. `i` is the
bit of the slot the host instruction accesses. -/
def bitSlot (ok : Ok) (op : Op) (k : Nat) (m : Mem) (s : Flags.St) (a : BitVec 32) (i : Nat) : Out :=
  if ok a k false then
    let r := hostBit op (BitVec.ofNat (8 * k) (load m a k)) i
    if op = .bt then .done m (setCf s r.1)
    else if ok a k true then .done (store m a k r.2.toNat) (setCf s r.1)
    else .fault
  else .fault

/-- jit.cpp 3749-3751: memory destination, immediate offset. -/
def bitMemImm (ok : Ok) (op : Op) (k : Nat) (m : Mem) (s : Flags.St) (a : BitVec 32) (imm : Nat) : Out :=
  bitSlot ok op k m s a imm

/-- jit.cpp 3743-3747: memory destination, register offset (signed, `off`). The host's instruction
with a register offset does not reduce the offset: it accesses the bit at that distance from the
slot, which is inside the slot only for offsets 0 to 8k-1. -/
def bitMemReg (ok : Ok) (op : Op) (k : Nat) (m : Mem) (s : Flags.St) (a : BitVec 32) (off : Int) : Out :=
  if 0 ≤ off ∧ off < 8 * k then bitSlot ok op k m s a off.toNat
  else if ok a k false then .hostOob else .fault

end Verif.BitTest
