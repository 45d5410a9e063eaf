import Verif.Model.StringOps
import Verif.Spec.Flags
import Verif.Lemmas.Flags
/-
Specification of the string instructions (SDM vol. 2), with numbers for registers and bytes for memory.
-/
namespace Verif.StringOps.Spec
open Verif.Flags (flags)
open Verif.Flags.Spec

/-- Values of an index or count register: 2^32 with 32 bit addressing, 65536 with 16 bit addressing. -/
def size (a32 : Bool) : Nat := if a32 then 4294967296 else 65536

/-- The register changes by `d`, modulo its size; with 16 bit addressing the upper half stays. -/
def Moves (a32 : Bool) (d : Int) (r r' : BitVec 32) : Prop :=
  ((r'.toNat % size a32 : Nat) : Int) = (r.toNat + d) % (size a32 : Nat) ∧ r'.toNat / size a32 = r.toNat / size a32

/-- Linear address of the element an index register points to. -/
def at_ (a32 : Bool) (base r : BitVec 32) : BitVec 32 := base + BitVec.ofNat 32 (r.toNat % size a32)

/-- The number in the `k` bytes at `a`, least significant byte first. -/
def num (m : BitVec 32 → BitVec 8) (a : BitVec 32) : Nat → Nat
  | 0 => 0
  | k + 1 => (m a).toNat + 256 * num m (a + 1#32) k

/-- Memory `m'` is `m` with the `k` bytes at `a` holding the number `v`. -/
def Stored (m m' : BitVec 32 → BitVec 8) (a : BitVec 32) (k v : Nat) : Prop :=
  ∀ x, m' x = if (x - a).toNat < k then BitVec.ofNat 8 (v / 256 ^ (x - a).toNat) else m x

/-- Distance to the next element. -/
def stride (e : Enc) (s : St) : Int := if s.df then -(e.k : Int) else e.k

/-- What one element does; everything not mentioned stays as it is. -/
def Elem (e : Enc) (s t : St) : Prop :=
  let a := at_ e.a32 s.src s.esi
  let b := at_ e.a32 s.dst s.edi
  match e.i with
  | .movs => t = { s with mem := t.mem, esi := t.esi, edi := t.edi } ∧ Stored s.mem t.mem b e.k (num s.mem a e.k) ∧
      Moves e.a32 (stride e s) s.esi t.esi ∧ Moves e.a32 (stride e s) s.edi t.edi
  | .stos => t = { s with mem := t.mem, edi := t.edi } ∧ Stored s.mem t.mem b e.k s.eax.toNat ∧ Moves e.a32 (stride e s) s.edi t.edi
  | .lods => t = { s with eax := t.eax, esi := t.esi } ∧ t.eax.toNat = s.eax.toNat / 256 ^ e.k * 256 ^ e.k + num s.mem a e.k ∧
      Moves e.a32 (stride e s) s.esi t.esi
  | .cmps => t = { s with fl := t.fl, esi := t.esi, edi := t.edi } ∧ t.fl.eflags = s.fl.eflags ∧
      flags t.fl = subFlags (BitVec.ofNat (8 * e.k) (num s.mem a e.k)) (BitVec.ofNat (8 * e.k) (num s.mem b e.k)) false ∧
      Moves e.a32 (stride e s) s.esi t.esi ∧ Moves e.a32 (stride e s) s.edi t.edi
  | .scas => t = { s with fl := t.fl, edi := t.edi } ∧ t.fl.eflags = s.fl.eflags ∧
      flags t.fl = subFlags (BitVec.ofNat (8 * e.k) s.eax.toNat) (BitVec.ofNat (8 * e.k) (num s.mem b e.k)) false ∧
      Moves e.a32 (stride e s) s.edi t.edi

/-- The accesses an element makes: address, and whether it writes. -/
def touches (e : Enc) (s : St) : List (BitVec 32 × Bool) :=
  let a := at_ e.a32 s.src s.esi
  let b := at_ e.a32 s.dst s.edi
  match e.i with
  | .movs => [(a, false), (b, true)]
  | .stos => [(b, true)]
  | .lods => [(a, false)]
  | .cmps => [(a, false), (b, false)]
  | .scas => [(b, false)]

/-- One repetition: an element, and one less in the count register. -/
def Turn (e : Enc) (s t : St) : Prop :=
  ∃ u, Elem e s u ∧ t = { u with ecx := t.ecx } ∧ Moves e.a32 (-1) u.ecx t.ecx

/-- Whether the prefix repeats after an element that left the zero flag `zf`. -/
def repeats (r : Rep) (zf : Bool) : Bool := match r with
  | .rep => true
  | .repz => zf
  | .repnz => !zf

/-- `n` repetitions lead from `s` to `t`, each but the last leaving a zero flag with which the prefix repeats. -/
inductive Turns (e : Enc) (r : Rep) : Nat → St → St → Prop
  | zero (s : St) : Turns e r 0 s s
  | one {s t : St} : Turn e s t → Turns e r 1 s t
  | more {n : Nat} {s t u : St} : Turn e s t → repeats r (flags t.fl).zf = true → Turns e r (n + 1) t u → Turns e r (n + 2) s u

end Verif.StringOps.Spec
