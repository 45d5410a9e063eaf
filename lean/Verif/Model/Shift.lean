import Verif.Model.Flags
/-
Shifts and rotates, core/emitter/x64/jit.cpp 2833-3007 (SHL, SHR, SAR), 3009-3166 (SHLD, SHRD) and
3168-3413 (RCL, RCR, ROL, ROR).  The emitter computes the result with the host's own instruction of
the same name, so the host instruction is part of the model: it is the SDM's loop.  Where the SDM
leaves a host flag or result undefined the model takes it from an arbitrary `Undef`.

Simplification: fetching the operand from a register or from memory and storing it back is not
modelled here; the definitions map the operand's value to the stored value and the flag words.
-/
namespace Verif.Flags

/-- What the host leaves in the places the SDM calls undefined; the theorems hold for every value. -/
structure Undef (n : Nat) where
  cf : Bool
  of : Bool
  res : BitVec n

/-- Host SHL (SDM vol. 2, SAL/SAR/SHL/SHR): one step per count. Returns (value, last bit out). -/
def hostShl {n : Nat} : Nat → BitVec n → Bool → BitVec n × Bool
  | 0, x, c => (x, c)
  | k + 1, x, _ => hostShl k (x <<< 1) x.msb

/-- Host SHR. -/
def hostShr {n : Nat} : Nat → BitVec n → Bool → BitVec n × Bool
  | 0, x, c => (x, c)
  | k + 1, x, _ => hostShr k (x >>> 1) (x.getLsbD 0)

/-- Host SAR. -/
def hostSar {n : Nat} : Nat → BitVec n → Bool → BitVec n × Bool
  | 0, x, c => (x, c)
  | k + 1, x, _ => hostSar k (x.sshiftRight 1) (x.getLsbD 0)

/-- Host ROL, the value: SDM vol. 2, RCL/RCR/ROL/ROR. -/
def hostRol {n : Nat} : Nat → BitVec n → BitVec n
  | 0, x => x
  | k + 1, x => hostRol k ((x <<< 1) ||| (BitVec.ofBool x.msb).setWidth n)

/-- Host ROR, the value. -/
def hostRor {n : Nat} : Nat → BitVec n → BitVec n
  | 0, x => x
  | k + 1, x => hostRor k ((x >>> 1) ||| (BitVec.ofBool (x.getLsbD 0)).setWidth n <<< (n - 1))

/-- Host RCL: rotate through carry. -/
def hostRcl {n : Nat} : Nat → BitVec n → Bool → BitVec n × Bool
  | 0, x, c => (x, c)
  | k + 1, x, c => hostRcl k ((x <<< 1) ||| (BitVec.ofBool c).setWidth n) x.msb

/-- Host RCR. -/
def hostRcr {n : Nat} : Nat → BitVec n → Bool → BitVec n × Bool
  | 0, x, c => (x, c)
  | k + 1, x, c => hostRcr k ((x >>> 1) ||| (BitVec.ofBool c).setWidth n <<< (n - 1)) (x.getLsbD 0)

/-- The instructions of the `shift` template (jit.cpp 2836: idx 0, 1, 2). -/
inductive ShOp where | shl | shr | sar
deriving DecidableEq, Repr

/-- The instructions of the `rotate` template (jit.cpp 3171: idx 0, 1, 2, 3). -/
inductive RotOp where | rcl | rcr | rol | ror
deriving DecidableEq, Repr

/-- The host's shift for a nonzero count `k`: (value, CF, OF). -/
def hostShift {n : Nat} (op : ShOp) (x : BitVec n) (k : Nat) (u : Undef n) : BitVec n × Bool × Bool :=
  match op with
  | .shl =>
    let p := hostShl k x false
    (p.1, if k < n then p.2 else u.cf, if k = 1 then p.1.msb ^^ p.2 else u.of)
  | .shr =>
    let p := hostShr k x false
    (p.1, if k < n then p.2 else u.cf, if k = 1 then x.msb else u.of)
  | .sar =>
    let p := hostSar k x false
    (p.1, p.2, if k = 1 then false else u.of)

/-- The host's rotate for a nonzero count `k`, carry in `c`: (value, CF, OF). -/
def hostRotate {n : Nat} (op : RotOp) (x : BitVec n) (c : Bool) (k : Nat) (u : Undef n) :
    BitVec n × Bool × Bool :=
  match op with
  | .rcl =>
    let p := hostRcl (k % (n + 1)) x c
    (p.1, p.2, if k = 1 then p.1.msb ^^ p.2 else u.of)
  | .rcr =>
    let p := hostRcr (k % (n + 1)) x c
    (p.1, p.2, if k = 1 then x.msb ^^ c else u.of)
  | .rol =>
    let r := hostRol (k % n) x
    (r, r.getLsbD 0, if k = 1 then r.msb ^^ r.getLsbD 0 else u.of)
  | .ror =>
    let r := hostRor (k % n) x
    (r, r.msb, if k = 1 then r.msb ^^ r.getLsbD (n - 2) else u.of)

/-- The host's SHLD for a nonzero count `k` (SDM vol. 2): undefined when the count exceeds the size. -/
def hostShld {n : Nat} (dst src : BitVec n) (k : Nat) (u : Undef n) : BitVec n × Bool × Bool :=
  if n < k then (u.res, u.cf, u.of)
  else
    let r := (dst <<< k) ||| (src >>> (n - k))
    (r, dst.getLsbD (n - k), if k = 1 then r.msb ^^ dst.msb else u.of)

/-- The host's SHRD. -/
def hostShrd {n : Nat} (dst src : BitVec n) (k : Nat) (u : Undef n) : BitVec n × Bool × Bool :=
  if n < k then (u.res, u.cf, u.of)
  else
    let r := (dst >>> k) ||| (src <<< (n - k))
    (r, dst.getLsbD (k - 1), if k = 1 then r.msb ^^ dst.msb else u.of)

/-- A host flag in a register after SETcc and MOVZX (jit.cpp 2889-2892). -/
def setcc (b : Bool) : BitVec 32 := if b then 1#32 else 0#32

/-- jit.cpp 2889-2896, repeated in every variant: SETC, SETO, MOVZX, XOR, ADD, OR, SHL 0x1E. -/
def shiftAux (cf of : Bool) : BitVec 32 :=
  ((setcc cf + setcc cf) ||| (setcc of ^^^ setcc cf)) <<< 0x1E

/-- jit.cpp 2840-2867: the count, from CL or an immediate, masked to five bits. -/
def shCount (count : BitVec 8) : Nat := (count &&& 0x1F#8).toNat

/-- jit.cpp 2833-3007: SHL, SHR, SAR. Returns the value stored in the destination and the state. -/
def shiftOp {n : Nat} (op : ShOp) (s : St) (x : BitVec n) (count : BitVec 8) (u : Undef n) :
    BitVec n × St :=
  if shCount count = 0 then (x, s)
  else
    let h := hostShift op x (shCount count) u
    (h.1, setFlags s h.1 (shiftAux h.2.1 h.2.2))

/-- jit.cpp 3009-3166: SHLD (`left`) and SHRD. -/
def dshiftOp {n : Nat} (left : Bool) (s : St) (dst src : BitVec n) (count : BitVec 8) (u : Undef n) :
    BitVec n × St :=
  if shCount count = 0 then (dst, s)
  else
    let h := if left then hostShld dst src (shCount count) u else hostShrd dst src (shCount count) u
    (h.1, setFlags s h.1 (shiftAux h.2.1 h.2.2))

/-- jit.cpp 3168-3413: RCL, RCR, ROL, ROR; the guest's CF is loaded into the host's before RCL and
RCR (3212-3221). -/
def rotateOp {n : Nat} (op : RotOp) (s : St) (x : BitVec n) (count : BitVec 8) (u : Undef n) :
    BitVec n × St :=
  if shCount count = 0 then (x, s)
  else
    let h := hostRotate op x (ldCf s != 0#32) (shCount count) u
    (h.1, { s with aux := (s.aux &&& 0x3FFFFFFF#32) ||| shiftAux h.2.1 h.2.2 })

end Verif.Flags
