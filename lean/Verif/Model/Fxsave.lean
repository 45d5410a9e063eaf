import Verif.Model.Fpu
import Verif.Model.GuestMem
/-
FXSAVE and FXRSTOR: core/fpu_instructions.cpp (all) and core/emitter/x64/jit.cpp 6593-6645.

Memory accesses are those of the guest's linear memory (Model.GuestMem); an access outside the
accessible pages raises a page fault in the middle of the helper, and what was changed before stays
changed. The #NM check (HFLG_CR0_EM, HFLG_CR0_TS) is not modelled.
-/
namespace Verif.Fxsave
open Verif.Guest

/-- The state saved and restored. `frp` and `shadow` are the control words loaded into the host
(lib86cpu_priv.hpp 179, 191). -/
structure St where
  fpu : Fpu.St
  frp : BitVec 16
  fop : BitVec 16
  fip : BitVec 32
  fcs : BitVec 16
  fdp : BitVec 32
  fds : BitVec 16
  mxcsr : BitVec 32
  shadow : BitVec 32
  xmm : Nat → BitVec 128

/-- A byte may be read (written). -/
abbrev Acc := BitVec 32 → Bool

/-- All `k` bytes from `a` on are accessible. -/
def accOk (ok : Acc) (a : BitVec 32) : Nat → Bool
  | 0 => true
  | k + 1 => accOk ok a k && ok (a + BitVec.ofNat 32 k)

/-- fpu_instructions.cpp 15-18: ftag_abridged, from register `i` on. -/
def abridgedFrom (tags : Nat → BitVec 8) : Nat → Nat → Nat
  | 0, _ => 0
  | n + 1, i => (if tags i = 3#8 then 0 else 1) <<< i ||| abridgedFrom tags n (i + 1)

/-- fpu_instructions.cpp 13-36: the stores (offset, size, value) in program order; `os` is
HFLG_CR4_OSFXSR. -/
def writes (s : St) (os : Bool) : List (Nat × Nat × Nat) :=
  [(0, 2, s.fpu.fctrl.toNat), (2, 2, (Fpu.readStatus s.fpu).toNat), (4, 1, abridgedFrom s.fpu.tags 8 0),
   (6, 2, s.fop.toNat), (8, 4, s.fip.toNat), (12, 2, s.fcs.toNat), (16, 4, s.fdp.toNat), (20, 2, s.fds.toNat)] ++
  (if os then [(24, 4, s.mxcsr.toNat), (28, 4, 0xFFBF)] else []) ++
  (List.range 8).map (fun i => (32 + 16 * i, 10, (s.fpu.fr i).toNat)) ++
  (if os then (List.range 8).map (fun i => (160 + 16 * i, 16, (s.xmm i).toNat)) else [])

/-- A sequence of stores; the Boolean tells that one faulted. -/
def doWrites (ok : Acc) (a : BitVec 32) : List (Nat × Nat × Nat) → Mem → Mem × Bool
  | [], m => (m, false)
  | (off, k, v) :: l, m =>
    if accOk ok (a + BitVec.ofNat 32 off) k then doWrites ok a l (store m (a + BitVec.ofNat 32 off) k v)
    else (m, true)

inductive Res (α : Type) where
  | done (x : α)
  | gp (x : α)
  | pf (x : α)

/-- jit.cpp 6620-6642 and fpu_instructions.cpp 10-37: FXSAVE. -/
def fxsave (ok : Acc) (s : St) (os : Bool) (a : BitVec 32) (m : Mem) : Res Mem :=
  if a &&& 15#32 ≠ 0#32 then .gp m
  else
    let r := doWrites ok a (writes s os) m
    if r.2 then .pf r.1 else .done r.1

/-- A read of `k` bytes at an offset and what is done with the value. -/
structure Rd where
  off : Nat
  size : Nat
  put : Nat → St → St

/-- fpu_instructions.cpp 61-78: reads in program order. -/
def reads (os : Bool) : List Rd :=
  [{ off := 0, size := 2, put := fun v s =>
      let c := BitVec.ofNat 16 v ||| 0x40#16
      { s with fpu := { s.fpu with fctrl := c }, frp := c ||| 0x3F#16 } },
   { off := 2, size := 2, put := fun v s => { s with fpu := Fpu.writeStatus s.fpu (BitVec.ofNat 16 v) } },
   { off := 6, size := 2, put := fun v s => { s with fop := BitVec.ofNat 16 v &&& 0x7FF#16 } },
   { off := 8, size := 4, put := fun v s => { s with fip := BitVec.ofNat 32 v } },
   { off := 12, size := 2, put := fun v s => { s with fcs := BitVec.ofNat 16 v } },
   { off := 16, size := 4, put := fun v s => { s with fdp := BitVec.ofNat 32 v } },
   { off := 20, size := 2, put := fun v s => { s with fds := BitVec.ofNat 16 v } }] ++
  (List.range 8).map (fun i => { off := 32 + 16 * i, size := 10, put := fun v s =>
      { s with fpu := { s.fpu with fr := Fpu.set s.fpu.fr i (BitVec.ofNat 80 v) } } }) ++
  (if os then (List.range 8).map (fun i => { off := 160 + 16 * i, size := 16, put := fun v s =>
      { s with xmm := Fpu.set s.xmm i (BitVec.ofNat 128 v) } }) else [])

/-- A sequence of reads; the Boolean tells that one faulted. -/
def doReads (ok : Acc) (m : Mem) (a : BitVec 32) : List Rd → St → St × Bool
  | [], s => (s, false)
  | r :: l, s =>
    if accOk ok (a + BitVec.ofNat 32 r.off) r.size then
      doReads ok m a l (r.put (load m (a + BitVec.ofNat 32 r.off) r.size) s)
    else (s, true)

/-- fpu_instructions.cpp 81-89: the tags, from register `i` on; TOP is zero meanwhile. -/
def tagLoop (abr : Nat) : Nat → Nat → Fpu.St → Fpu.St
  | 0, _, f => f
  | n + 1, i, f => tagLoop abr n (i + 1) (Fpu.updateTag f (abr &&& (1 <<< i) != 0) i)

/-- fpu_instructions.cpp 80-91. The byte at offset 4 is read at line 64, between the status word and
the opcode; nothing writes memory meanwhile. -/
def restoreTags (abr : Nat) (f : Fpu.St) : Fpu.St :=
  { tagLoop abr 8 0 { f with ftop := 0 } with ftop := f.ftop }

/-- fpu_instructions.cpp 57-58: shadow_mxcsr. -/
def shadowOf (v : BitVec 32) : BitVec 32 := (v ||| (0x3F#32 <<< 7)) &&& ~~~0x3F#32

/-- fpu_instructions.cpp 39-92: fxrstor_helper. The one byte read of the abridged tags is checked with
the two bytes of the status word next to it. -/
def fxrstor (ok : Acc) (m : Mem) (os : Bool) (a : BitVec 32) (s : St) : Res St :=
  if a &&& 15#32 ≠ 0#32 then .gp s
  else if !ok a || !ok (a + 287#32) then .pf s
  else if os && !accOk ok (a + 24#32) 4 then .pf s
  else
    let v := BitVec.ofNat 32 (load m (a + 24#32) 4)
    if os = true ∧ v &&& ~~~0xFFBF#32 ≠ 0#32 then .gp s
    else
      let s1 := if os then { s with mxcsr := v, shadow := shadowOf v } else s
      let r := doReads ok m a (reads os) s1
      if r.2 || !accOk ok (a + 4#32) 1 then .pf r.1
      else .done { r.1 with fpu := restoreTags (load m (a + 4#32) 1) r.1.fpu }

end Verif.Fxsave
