/-
Reference for C109: the guest runs one instruction at a time.  Before it, a breakpoint at its address raises #DB unless RF is set; after
it, #DB is raised once if TF was set before it or if it hit a data watchpoint.  RF is cleared by every instruction that does not load it.
-/
import Verif.Model.DbgStep

namespace Verif.Step

/-- The guest as the manual describes it. -/
structure G (σ : Type) where
  eip : Addr
  fl : Fl
  rest : σ
  bps : Bps
  dr6 : BitVec 32
  log : List Ev

/-- An exception or interrupt is taken. -/
def G.take {σ : Type} (h : Hand σ) (n : Nat) (ret : Addr) (s : G σ) : G σ :=
  { s with eip := h.entry n, fl := ⟨false, false⟩, rest := h.push ⟨n, ret, s.fl⟩ s.rest, log := ⟨n, ret, s.fl⟩ :: s.log }

/-- One instruction or one breakpoint. -/
def G.step {σ : Type} (h : Hand σ) (P : Addr → Insn σ) (s : G σ) : G σ :=
  match (if s.fl.rf then none else s.bps s.eip) with
  | some i => G.take h 1 s.eip { s with dr6 := s.dr6 ||| (1#32 <<< i.val) }
  | none => match (P s.eip).act s.rest with
    | .raise n b r ret => G.take h n ret { s with rest := r, dr6 := s.dr6 ||| b.setWidth 32 }
    | .done e =>
      let t : G σ := { s with eip := e.next, rest := e.rest, bps := e.bps s.bps, fl := e.fl.getD ⟨s.fl.tf, false⟩,
                              dr6 := s.dr6 ||| b32 e.hit ||| (if s.fl.tf then 0x4000#32 else 0#32) }
      if s.fl.tf = true ∨ e.hit ≠ 0#4 then G.take h 1 e.next t else t
where b32 (b : BitVec 4) : BitVec 32 := b.setWidth 32

/-- `n` of them. -/
def G.runs {σ : Type} (h : Hand σ) (P : Addr → Insn σ) : Nat → G σ → G σ
  | 0, s => s
  | n + 1, s => G.runs h P n (G.step h P s)

/-- The emulated machine shows what the reference has: everything but bits 0-3 of DR6, of which more may be set. -/
structure Shows {σ : Type} (m : M σ) (s : G σ) : Prop where
  eip : m.eip = s.eip
  fl : m.fl = s.fl
  rest : m.rest = s.rest
  bps : m.bps = s.bps
  log : m.log = s.log
  dr6 : ∀ i, s.dr6.getLsbD i = true → m.dr6.getLsbD i = true
  dr6Hi : ∀ i, 4 ≤ i → m.dr6.getLsbD i = s.dr6.getLsbD i

/-- An instruction with which a block goes on falls through to the next one and changes neither TF, RF nor the breakpoints. -/
def Plain {σ : Type} (P : Addr → Insn σ) : Prop :=
  ∀ a, (P a).ends = false → ∀ r e, (P a).act r = .done e → e.next = a + BitVec.ofNat 32 (P a).len ∧ e.fl = none ∧ e.bps = id

/-- What the instruction about to run must not do for C109 to hold: hit a watchpoint while TF is set, load RF while RF is set, or set a
breakpoint; and it must not hit a watchpoint and raise another exception (`q = false`), unless there are no breakpoints and no INT 1
(`q = true`). -/
def Mild (q : Bool) {σ : Type} (P : Addr → Insn σ) (s : G σ) : Prop :=
  (q = true → ∀ a, s.bps a = none) ∧
  match (P s.eip).act s.rest with
  | .raise n b _ _ => if q then n ≠ 1 else b = 0#4
  | .done e => (s.fl.tf = true → e.hit = 0#4) ∧ (s.fl.rf = true → ∀ f, e.fl = some f → f.rf = false) ∧ ∀ a, s.bps a = none → e.bps s.bps a = none

/-- The addresses of a block follow one another. -/
def Chain {σ : Type} (P : Addr → Insn σ) : List Addr → Prop
  | [] => True
  | [_] => True
  | a :: b :: l => (P a).ends = false ∧ b = a + BitVec.ofNat 32 (P a).len ∧ Chain P (b :: l)

/-- A cached block was translated with TF and RF clear, and has no breakpoint. -/
structure Clean {σ : Type} (P : Addr → Insn σ) (bp : Bps) (b : Blk) : Prop where
  fl : b.fl = ⟨false, false⟩
  brk : b.brk = false
  head : b.code.head? = some b.start
  chain : Chain P b.code
  free : ∀ a ∈ b.code, bp a = none

end Verif.Step
