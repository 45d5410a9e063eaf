/-
What a TLB may answer: the translation a fresh page walk gives.
-/
import Verif.Model.Tlb
import Verif.Spec.Paging

namespace Verif.Paging.Spec
open Verif.Paging

/-- The corrected physical address a fresh page walk gives, if the access is granted. -/
def answer (b : Bus) (c : Ctl) (m : Mem) (va : Addr) (wr pr : Bool) : Option Addr :=
  match (walk b.fix c m va wr pr false).1 with
  | .ok p _ => some (b.fix p)
  | _ => none

/-- Two memories (and control registers) translate every address alike, at every privilege level. -/
def SameTables (b : Bus) (c : Ctl) (m : Mem) (c' : Ctl) (m' : Mem) : Prop :=
  ∀ (cpl : BitVec 2) va wr pr, answer b { c' with cpl := cpl } m' va wr pr = answer b { c with cpl := cpl } m va wr pr

/-- The page of `va` is mapped global. -/
def GlobalPage (b : Bus) (c : Ctl) (m : Mem) (va : Addr) : Prop :=
  pagingOn c = true ∧ globalPages c = true ∧ ∃ mp, mapping b.fix c m va = some mp ∧ mp.global = true

/-- Aliases and the a20 gate work on whole pages: addresses of one page are corrected to addresses of one page with the same offset. -/
structure PageWise (b : Bus) : Prop where
  offset : ∀ a, (b.fix a) &&& 0xFFF#32 = a &&& 0xFFF#32
  page : ∀ a a', pageBase a = pageBase a' → pageBase (b.fix a) = pageBase (b.fix a')

/-- A step of a history of translations, TLB maintenance and table changes. -/
inductive Op where
  | read (va : Addr) (pr : Bool) (victim : Nat)
  | readSlow (va : Addr) (pr : Bool) (victim : Nat)
  | write (va : Addr) (pr : Bool) (victim : Nat)
  | writeSlow (va : Addr) (pr : Bool) (victim : Nat)
  | code (va : Addr) (setSmc : Bool) (victim : Nat)
  | inval (va : Addr)
  | cpl (l : BitVec 2)
  | store (m : Mem)
  | reload (c : Ctl) (m : Mem)        -- new control registers / tables, then a full flush
  | reloadLocal (c : Ctl) (m : Mem)   -- new control registers / tables, then a flush that keeps global entries

def step (b : Bus) (s : St) : Op → St
  | .read va pr v => (getRead b s va pr v).1
  | .readSlow va pr v => (translate b s false va false pr false v).1
  | .write va pr v => (getWrite b s va pr v).1
  | .writeSlow va pr v => (translate b s false va true pr false v).1
  | .code va sc v => (getCode b s va sc v).1
  | .inval va => invalidate s va
  | .cpl l => { s with ctl := { s.ctl with cpl := l } }
  | .store m => { s with mem := m }
  | .reload c m => flushAll { s with ctl := c, mem := m }
  | .reloadLocal c m => flushLocal { s with ctl := c, mem := m }

/-- What the guest must respect for its TLB to stay coherent: plain stores do not change translations, and neither do reloads that
keep global entries for the pages that are global. -/
def Respects (b : Bus) (s : St) : Op → Prop
  | .store m => SameTables b s.ctl s.mem s.ctl m ∧ ∀ va, GlobalPage b s.ctl s.mem va → GlobalPage b s.ctl m va
  | .reloadLocal c m => ∀ va, GlobalPage b s.ctl s.mem va → GlobalPage b c m va ∧
      ∀ (cpl : BitVec 2) wr pr, answer b { c with cpl := cpl } m va wr pr = answer b { s.ctl with cpl := cpl } s.mem va wr pr
  | _ => True

/-- A reachable state: any number of steps after a flush. -/
inductive Reachable (b : Bus) : St → Prop
  | start (c : Ctl) (m : Mem) (smc : Addr → Bool) : Reachable b { ctl := c, mem := m, dtlb := fun _ _ => Line.zero, itlb := fun _ _ => Line.zero, smc := smc }
  | next {s : St} (op : Op) : Reachable b s → Respects b s op → Reachable b (step b s op)

/-- The address a step translates for a data access (`fetch = false`) or for an instruction fetch (`fetch = true`). -/
def Op.target (fetch : Bool) : Op → Option Addr
  | .read va _ _ | .readSlow va _ _ | .write va _ _ | .writeSlow va _ _ => if fetch then none else some va
  | .code va _ _ => if fetch then some va else none
  | _ => none

/-- Running a list of steps. -/
def run (b : Bus) (s : St) (ops : List Op) : St := ops.foldl (step b) s

/-- Nothing is in the TLBs. -/
def Empty (s : St) : Prop := (∀ x i, s.dtlb x i = Line.zero) ∧ ∀ x i, s.itlb x i = Line.zero

/-- The step translates an address of the page of `va`. -/
def Op.isUse (fetch : Bool) (va : Addr) (op : Op) : Bool := (op.target fetch).any (fun x : Addr => decide (x >>> 12 = va >>> 12))

/-- How many steps of the list translate an address of the page of `va`. -/
def uses (fetch : Bool) (va : Addr) (ops : List Op) : Nat := ops.countP (Op.isUse fetch va)

/-- Some access (of any kind, at any privilege) to `va` would be served by the data TLB. -/
def DataHit (s : St) (va : Addr) : Prop := ∃ (cpl : BitVec 2) (wr pr : Bool), (lookup dGeo s.dtlb (accessBit { s.ctl with cpl := cpl } wr pr) va).isSome = true
/-- Some fetch from `va` would be served by the instruction TLB. -/
def CodeHit (s : St) (va : Addr) : Prop := ∃ cpl : BitVec 2, (lookup iGeo s.itlb (accessBit { s.ctl with cpl := cpl } false false) va).isSome = true

end Verif.Paging.Spec
