import Verif.Model.Tramp
/-
Trampolines: what trampoline_call should do.
-/
namespace Verif.Tc.Spec

/-- A link between blocks or a predicted return leads to the instruction pointer `ret` without passing the main loop. -/
def Leads (s : St) (ret : BitVec 32) : Prop :=
  (∃ i, (s.jmp i).flags &&& INVALID = 0#32 ∧ (s.jmp i).virt - (s.jmp i).csBase = ret) ∨
  (∃ i t, (s.rsb i).valid = true ∧ (s.rsb i).tc = some t ∧ (s.rsb i).target - t.csBase = ret)

/-- Where an event takes the guest. -/
def dest : Ev → Option (BitVec 32)
  | .act _ => none
  | .next v _ | .fault v _ _ | .jump v _ | .ret v _ => some v

/-- The code at `v` is not cached for another linear address. -/
def NoAlias (s : St) (v : BitVec 32) : Prop := ∀ t, search s (phys s.map v) = some t → t.virt = v

/-- A call does not return to `ret`: it is not a recursive call from the place that called the hooked function. -/
def CallOk (s : St) (ret : BitVec 32) : Op → Prop
  | .call _ target => ∀ t, s.cur = some t → target - t.csBase ≠ ret
  | _ => True

/-- The same for all of a list of changes. -/
def CallsOk (d : Decoder) (ret : BitVec 32) (s : St) : List Op → Prop
  | [] => True
  | o :: os => CallOk s ret o ∧ CallsOk d ret (acts d s [o]) os

/-- What the returning of trampoline_call relies on at an event. -/
def Fair (d : Decoder) (L : Loop) : Ev → Prop
  | .act o => CallOk L.s L.ret o
  | .next v _ | .jump v _ => NoAlias L.s v
  | .ret v _ => NoAlias L.s v
  | .fault _ os h => CallsOk d L.ret (untramp L.s) os ∧ h - (acts d (untramp L.s) os).csBase ≠ L.ret ∧
      NoAlias (acts d (untramp L.s) os) h

/-- The same for all events. -/
def FairRun (d : Decoder) (L : Loop) : List Ev → Prop
  | [] => True
  | e :: es => Fair d L e ∧ FairRun d (L.step d e) es

/-- The flag is part of the mode of the cpu: setting it and clearing it are mode switches. -/
def setTramp (s : St) : Op := .setMode s.csBase (s.flags ||| TRAMP) s.flags
def clearTramp (s : St) : Op := .setMode s.csBase (s.flags &&& ~~~TRAMP) s.flags

/-- One round of the loop in terms of the events of Model/Tc.lean. -/
def roundOps (d : Decoder) (L : Loop) (v : BitVec 32) (link : Bool) : List Op :=
  if v - L.s.csBase = L.ret then [.advance v] else [.run v link, clearTramp (mainLoop d L.s v link).2]

/-- An event of the trampoline in terms of the events of Model/Tc.lean. -/
def opsOf (d : Decoder) (L : Loop) (e : Ev) : List Op :=
  if L.done then [] else
  match e with
  | .act o => [o].filter Op.inner
  | .next v link => roundOps d L v link
  | .fault v os h =>
    if v - L.s.csBase = L.ret then [.advance v]
    else clearTramp L.s :: os.filter Op.inner ++
      [.run h false, clearTramp (mainLoop d (acts d (untramp L.s) os) h false).2]
  | .jump v link =>
    match jumpTo L.s v with
    | some _ => [.jump v]
    | none => .jump v :: roundOps d { L with s := { L.s with now := v, cur := none } } v link
  | .ret v link =>
    match rsbPop { L.s with now := v } with
    | (some _, _) => [.ret v]
    | (none, s) => .ret v :: roundOps d { L with s := { s with cur := none } } v link

/-- The same for all events. -/
def opsRun (d : Decoder) (L : Loop) : List Ev → List Op
  | [] => []
  | e :: es => opsOf d L e ++ opsRun d (L.step d e) es

/-- The first event of a trampoline. -/
def first (s : St) : Option (List Op × BitVec 32) → Ev
  | none => .next s.now false
  | some (os, h) => .fault s.now os h

/-- The loop when trampoline_call starts. -/
def start (s : St) (ret : BitVec 32) : Loop := ⟨{ s with flags := s.flags ||| TRAMP }, ret, false, []⟩

/-- The event switches to a mode with the trampoline bit; the guest cannot do that. -/
def noTramp : Op → Prop
  | .setMode _ h _ => h &&& TRAMP = 0#32
  | _ => True

/-- The same for an event. -/
def NoTramp : Ev → Prop
  | .act o => noTramp o
  | .fault _ os _ => ∀ o ∈ os, noTramp o
  | _ => True

end Verif.Tc.Spec
