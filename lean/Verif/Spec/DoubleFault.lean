import Verif.Model.Exc
/-
Exceptions raised while another event is being delivered (Intel SDM vol. 3, table 6-4 and 6-5).
-/
namespace Verif.Seg.Spec

/-- Class of an event. -/
inductive Class where
  | benign | contributory | pageFault | doubleFault
deriving DecidableEq

/-- An event: how it was raised, vector, error code and, for page faults, the address. -/
structure Event where
  kind : Kind
  idx : Nat
  code : BitVec 16
  cr2 : BitVec 32

/-- Software and hardware interrupts are benign whatever their vector; #DE, #TS, #NP, #SS and #GP are
contributory. -/
def classOf (e : Event) : Class :=
  if e.kind.intn ≠ 0 ∨ e.kind.hw = true then .benign
  else if e.idx = 8 then .doubleFault
  else if e.idx = 14 then .pageFault
  else if e.idx = 0 ∨ e.idx = 10 ∨ e.idx = 11 ∨ e.idx = 12 ∨ e.idx = 13 then .contributory
  else .benign

/-- What to do with a second event. -/
inductive Verdict where
  | serial | double | shutdown
deriving DecidableEq

/-- The table: rows are the event being delivered, columns the event raised by its delivery. -/
def table : Class → Class → Verdict
  | .benign, _ => .serial
  | .contributory, .contributory => .double
  | .contributory, _ => .serial
  | .pageFault, .contributory => .double
  | .pageFault, .pageFault => .double
  | .pageFault, _ => .serial
  | .doubleFault, .contributory => .shutdown
  | .doubleFault, .pageFault => .shutdown
  | .doubleFault, _ => .serial

/-- Delivering `e` in state `s` raises the second event `e2`, in state `s2`; `pf` gives the error code and
address of page faults. -/
inductive Raises (acc : Acc) (pf : Cpu → BitVec 16 × BitVec 32) (e : Event) (s : Cpu) : Event → Cpu → Prop where
  | exc (i : Nat) (c : BitVec 16) (s2 : Cpu) (h : deliver acc e.kind e.idx e.code e.cr2 s = .stop (.exc i c) s2) :
    Raises acc pf e s ⟨.exn, i, c, e.cr2⟩ s2
  | page (s2 : Cpu) (h : deliver acc e.kind e.idx e.code e.cr2 s = .stop .fault s2) :
    Raises acc pf e s ⟨.exn, 14, (pf s2).1, (pf s2).2⟩ s2

/-- Handling of an event according to the table; finite derivations only. -/
inductive Handled (acc : Acc) (pf : Cpu → BitVec 16 × BitVec 32) : Event → Cpu → Outcome → Prop where
  | delivered (e : Event) (s s' : Cpu) (h : deliver acc e.kind e.idx e.code e.cr2 s = .ok () s') : Handled acc pf e s (.done s')
  | aborted (e : Event) (s s' : Cpu) (h : deliver acc e.kind e.idx e.code e.cr2 s = .stop .abort s') : Handled acc pf e s (.abort s')
  | serial (e : Event) (s : Cpu) (e2 : Event) (s2 : Cpu) (o : Outcome) (h : Raises acc pf e s e2 s2)
    (hv : table (classOf e) (classOf e2) = .serial) (hn : Handled acc pf e2 s2 o) : Handled acc pf e s o
  | double (e : Event) (s : Cpu) (e2 : Event) (s2 : Cpu) (o : Outcome) (h : Raises acc pf e s e2 s2)
    (hv : table (classOf e) (classOf e2) = .double) (hn : Handled acc pf ⟨.exn, 8, 0#16, e2.cr2⟩ s2 o) : Handled acc pf e s o
  | shutdown (e : Event) (s : Cpu) (e2 : Event) (s2 : Cpu) (h : Raises acc pf e s e2 s2)
    (hv : table (classOf e) (classOf e2) = .shutdown) : Handled acc pf e s (.shutdown s2)

end Verif.Seg.Spec
