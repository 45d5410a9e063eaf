import Verif.Spec.DoubleFault
/-
CR2 (Intel SDM vol. 3, 2.5 and 6.15): it holds the linear address of the last page fault.
-/
namespace Verif.Seg.Spec

/-- What CR2 should hold once event `e` has occurred, if it held `v` before: a page fault stores its address, whether or not it is then
promoted to a double fault; interrupts, whatever their vector, store nothing. -/
def noteFault (e : Event) (v : BitVec 32) : BitVec 32 := if classOf e = .pageFault then e.cr2 else v

/-- Handling of `e` from `s` ends in a handler, in state `s1`.  `v` is what CR2 should hold before, `v1` what it should hold in the handler,
and `df` tells whether an exception was promoted to a double fault on the way. -/
inductive Delivered (acc : Acc) (pf : Cpu → BitVec 16 × BitVec 32) : Event → Cpu → BitVec 32 → Cpu → BitVec 32 → Bool → Prop where
  | direct (e : Event) (s s1 : Cpu) (v : BitVec 32) (h : deliver acc e.kind e.idx e.code e.cr2 s = .ok () s1) :
    Delivered acc pf e s v s1 (noteFault e v) false
  | serial (e e2 : Event) (s s2 s1 : Cpu) (v v1 : BitVec 32) (df : Bool) (h : Raises acc pf e s e2 s2)
    (hv : table (classOf e) (classOf e2) = .serial) (hn : Delivered acc pf e2 s2 (noteFault e v) s1 v1 df) : Delivered acc pf e s v s1 v1 df
  | double (e e2 : Event) (s s2 s1 : Cpu) (v v1 : BitVec 32) (df : Bool) (h : Raises acc pf e s e2 s2)
    (hv : table (classOf e) (classOf e2) = .double)
    (hn : Delivered acc pf ⟨.exn, 8, 0#16, e2.cr2⟩ s2 (noteFault e2 (noteFault e v)) s1 v1 df) : Delivered acc pf e s v s1 v1 true

end Verif.Seg.Spec
