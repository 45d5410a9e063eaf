import Verif.Lemmas.ModeStep
/-
C33: the mode bits under which code is translated agree with the architectural registers.
-/
namespace Verif.Seg
open Spec

namespace ModeP

/-- Far JMP, CALL and RET, and IRET. -/
def farTransfer : Op → Bool
  | .farJmp _ _ _ | .farCall _ _ _ _ | .farRet _ | .iret _ => true
  | _ => false

/-- cpu_sync_state. -/
def isSync : Op → Bool
  | .sync => true
  | _ => false

/-- A load of DS, ES, FS, GS or SS. -/
def isLoad : Op → Bool
  | .loadSeg .cs _ => false
  | .loadSeg _ _ => true
  | _ => false

/-- Every operation of a history satisfies `p` in the state it is executed in. -/
def Along (acc : Acc) (pf : Cpu → BitVec 16 × BitVec 32) (p : Op → Regs → Prop) : List Op → Cpu → Prop
  | [], _ => True
  | o :: os, s => p o s.r ∧ ∀ s', exec acc pf o s = .done s' → Along acc pf p os s'

/-- cpu_sync_state is called only in protected mode. -/
def syncOk (o : Op) (r : Regs) : Prop := isSync o = true → mode r = .prot

/-- No far transfer in real or vm86 mode, no exception in vm86 mode. -/
def flatOk (o : Op) (r : Regs) : Prop :=
  mode r = .prot ∨ (mode r = .real ∧ farTransfer o = false ∧ isSync o = false) ∨
    (mode r = .vm86 ∧ isLoad o = true)

/-- The registers after cpu_new (core/translate.cpp 391-432; hflags is value initialised to 0). -/
def reset : Regs where
  es := ⟨0#16, 0#32, 0xFFFF#32, 0x9300#32⟩
  cs := ⟨0xF000#16, 0xFFFF0000#32, 0xFFFF#32, 0x9B00#32⟩
  ss := ⟨0#16, 0#32, 0xFFFF#32, 0x9300#32⟩
  ds := ⟨0#16, 0#32, 0xFFFF#32, 0x9300#32⟩
  fs := ⟨0#16, 0#32, 0xFFFF#32, 0x9300#32⟩
  gs := ⟨0#16, 0#32, 0xFFFF#32, 0x9300#32⟩
  ldtr := ⟨0#16, 0#32, 0xFFFF#32, 0x8200#32⟩
  tr := ⟨0#16, 0#32, 0xFFFF#32, 0x8B00#32⟩
  gdtBase := 0#32
  gdtLimit := 0xFFFF#32
  idtBase := 0#32
  idtLimit := 0xFFFF#32
  cr0 := 0x60000010#32
  cr2 := 0#32
  cr3 := 0#32
  cr4 := 0#32
  dr7 := 0x400#32
  esp := 0#32
  eip := 0xFFF0#32
  eflags := 2#32
  arith := 0#32
  hflags := 0#32

end ModeP
open ModeP

/-- A freshly created cpu has agreeing mode bits. -/
theorem C33_reset : Agree reset ∧ NoVmInReal reset := by
  refine ⟨⟨?_, ?_⟩, ?_⟩
  · constructor <;> decide
  · constructor <;> decide
  · intro _; decide

theorem mode_prot_of {fl : Bool} {r : Regs} (h : Prot fl r) : mode r = .prot := by
  simp [mode, h.2.1, h.2.2]
theorem mode_real_of {fl : Bool} {r : Regs} (h : RealC fl r) : mode r = .real := by
  simp [mode, h.1]
theorem mode_vm_of {fl : Bool} {r : Regs} (h : VmC fl r) : mode r = .vm86 := by
  simp [mode, h.1, h.2.1]

theorem exec_core (acc : Acc) (pf : Cpu → BitVec 16 × BitVec 32) (o : Op) (s : Cpu)
    (h : Coherent false s.r) (ho : syncOk o s.r) : (exec acc pf o s).holds (Coherent false) := by
  rcases (coherent_three _).1 h with h | h | h
  · refine exec_holds (P := NotProt false) acc pf o s (notProt_mono (.inl h)) (triple_instr_notProt acc o ?_) ?_
      (fun r h => h.1)
    · cases o <;> try trivial
      have := ho rfl
      rw [mode_real_of h] at this; cases this
    · intro k idx code cr2 s hs
      rcases notProt_cases hs with hs | hs
      · have := raise_real acc pf 5 k none idx code cr2 s hs
        cases hr : raise acc pf 5 k none idx code cr2 s with
        | outOfFuel => trivial
        | done s => rw [hr] at this; exact (coherent_three _).2 (.inl this)
        | shutdown s => rw [hr] at this; exact (coherent_three _).2 (.inl this)
        | abort s => rw [hr] at this; exact (coherent_three _).2 (.inl this)
      · exact raise_vm acc pf 5 k none idx code cr2 s hs
  · refine exec_holds (P := NotProt false) acc pf o s (notProt_mono (.inr h)) (triple_instr_notProt acc o ?_) ?_
      (fun r h => h.1)
    · cases o <;> try trivial
      have := ho rfl
      rw [mode_vm_of h] at this; cases this
    · intro k idx code cr2 s hs
      rcases notProt_cases hs with hs | hs
      · have := raise_real acc pf 5 k none idx code cr2 s hs
        cases hr : raise acc pf 5 k none idx code cr2 s with
        | outOfFuel => trivial
        | done s => rw [hr] at this; exact (coherent_three _).2 (.inl this)
        | shutdown s => rw [hr] at this; exact (coherent_three _).2 (.inl this)
        | abort s => rw [hr] at this; exact (coherent_three _).2 (.inl this)
      · exact raise_vm acc pf 5 k none idx code cr2 s hs
  · refine exec_holds (P := Prot false) acc pf o s h (triple_instr_prot acc o) ?_ (fun r h => h.coherent)
    intro k idx code cr2 s hs
    have := raise_prot acc pf 5 k none idx code cr2 s hs
    cases hr : raise acc pf 5 k none idx code cr2 s with
    | outOfFuel => trivial
    | done s => rw [hr] at this; exact this.coherent
    | shutdown s => rw [hr] at this; exact this.coherent
    | abort s => rw [hr] at this; exact this.coherent

theorem triple_instr_real (acc : Acc) (o : Op) (h1 : farTransfer o = false) (h2 : isSync o = false) :
    Triple (RealC true) (Coherent true) (instr acc o) := by
  have hc : ∀ r, RealC true r → Coherent true r := fun r h => (coherent_three r).2 (.inl h)
  cases o with
  | loadSeg i sel =>
    cases i with
    | cs => exact (keeps_stop _).triple hc
    | _ =>
      refine triple_getR_bind fun r hr => ?_
      rw [peNotVm_real hr, if_neg (by simp)]
      exact triple_modR fun r h => ((keeps_movSelReal (fl := true) _ sel).run ⟨r, fun _ => 0#8⟩ (notProt_mono (.inl h))).1
  | farJmp sel k eip => cases h1
  | farCall sel k eip ret => cases h1
  | farRet k => cases h1
  | iret k => cases h1
  | movCr i n => exact triple_crM fun r r' f h hu => coherent_movToCr r r' i n f (hc r h) hu
  | lmsw v => exact triple_crM fun r r' f h hu => coherent_lmsw r r' v f (hc r h) hu
  | clts => exact triple_crM fun r r' f h hu => coherent_clts r r' f (hc r h) hu
  | ltr sel =>
    refine triple_getR_bind fun r hr => ?_
    refine triple_bind (keeps_check ..) fun _ => ?_
    refine triple_bind (keeps_check ..) fun _ => ?_
    exact (keeps_ltr acc sel fun r t h => h).triple hc
  | lldt sel =>
    refine triple_getR_bind fun r hr => ?_
    refine triple_bind (keeps_check ..) fun _ => ?_
    refine triple_bind (keeps_check ..) fun _ => ?_
    exact (keeps_lldt acc sel fun r t h => h).triple hc
  | event k idx code cr2 => exact (keeps_pure ()).triple hc
  | sync => cases h2

theorem exec_flat (acc : Acc) (pf : Cpu → BitVec 16 × BitVec 32) (o : Op) (s : Cpu)
    (h : Coherent true s.r) (ho : flatOk o s.r) : (exec acc pf o s).holds (Coherent true) := by
  rcases (coherent_three _).1 h with h | h | h
  · have hm := mode_real_of h
    obtain ⟨h1, h2⟩ : farTransfer o = false ∧ isSync o = false := by
      rcases ho with ho | ho | ho
      · rw [hm] at ho; cases ho
      · exact ho.2
      · rw [hm] at ho; cases ho.1
    refine exec_holds (P := RealC true) acc pf o s h (triple_instr_real acc o h1 h2) ?_
      (fun r h => (coherent_three r).2 (.inl h))
    intro k idx code cr2 s hs
    have := raise_real acc pf 5 k none idx code cr2 s hs
    cases hr : raise acc pf 5 k none idx code cr2 s with
    | outOfFuel => trivial
    | done s => rw [hr] at this; exact (coherent_three _).2 (.inl this)
    | shutdown s => rw [hr] at this; exact (coherent_three _).2 (.inl this)
    | abort s => rw [hr] at this; exact (coherent_three _).2 (.inl this)
  · have hm := mode_vm_of h
    have hl : isLoad o = true := by
      rcases ho with ho | ho | ho
      · rw [hm] at ho; cases ho
      · rw [hm] at ho; cases ho.1
      · exact ho.2
    cases o with
    | loadSeg i sel =>
      have hk : Triple (VmC true) (Coherent true) (movSelReal i sel) := triple_modR fun r h =>
        ((keeps_movSelReal (fl := true) i sel).run ⟨r, fun _ => 0#8⟩ (notProt_mono (.inr h))).1
      have hi : instr acc (.loadSeg i sel) s = movSelReal i sel s := by
        cases i <;> first
          | (cases hl; done)
          | (show (if peNotVm s.r = true then _ else _ : M Unit) s = _
             rw [peNotVm_vm h, if_neg (by simp)])
      show Outcome.holds _ (match instr acc (.loadSeg i sel) s with
        | .ok _ s => .done s
        | .stop (.exc i c) s => raise acc pf 5 .exn none i c 0#32 s
        | .stop .fault s => raise acc pf 5 .exn none 14 (pf s).1 (pf s).2 s
        | .stop .abort s => .abort s)
      rw [hi]
      exact hk.ok s () _ h rfl
    | _ => cases hl
  · refine exec_holds (P := Prot true) acc pf o s h (triple_instr_prot acc o) ?_ (fun r h => h.coherent)
    intro k idx code cr2 s hs
    have := raise_prot acc pf 5 k none idx code cr2 s hs
    cases hr : raise acc pf 5 k none idx code cr2 s with
    | outOfFuel => trivial
    | done s => rw [hr] at this; exact this.coherent
    | shutdown s => rw [hr] at this; exact this.coherent
    | abort s => rw [hr] at this; exact this.coherent

theorem run_along (acc : Acc) (pf : Cpu → BitVec 16 × BitVec 32) (p : Op → Regs → Prop) (P : Regs → Prop)
    (hstep : ∀ o s, P s.r → p o s.r → (exec acc pf o s).holds P) :
    ∀ os s, P s.r → Along acc pf p os s → (run acc pf os s).holds P := by
  intro os
  induction os with
  | nil => intro s h _; exact h
  | cons o os ih =>
    intro s h ha
    have h1 := hstep o s h ha.1
    unfold run
    cases he : exec acc pf o s with
    | done s' => rw [he] at h1; exact ih s' h1 (ha.2 s' he)
    | shutdown s' => rw [he] at h1; exact h1
    | abort s' => rw [he] at h1; exact h1
    | outOfFuel => trivial

/-- After every history of segment loads, far transfers, IRETs, control register writes, exceptions,
interrupts and cpu_sync_state calls (those only in protected mode), CPL, operand size, stack size, PE
and the copies of the CR0/CR4 bits agree with the registers.  Missing: cpu_sync_state in real and vm86
mode (`C33_sync_violation`) and the flat-segment bits (`C33_flat_partial`). -/
theorem C33_core_partial (acc : Acc) (pf : Cpu → BitVec 16 × BitVec 32) (os : List Op) (s : Cpu)
    (h : AgreeCore s.r) (hv : NoVmInReal s.r) (ho : Along acc pf syncOk os s) :
    (run acc pf os s).holds fun r => AgreeCore r ∧ NoVmInReal r := by
  have := run_along acc pf syncOk (Coherent false) (fun o s h hp => exec_core acc pf o s h hp) os s
    ((coherent_false _).2 ⟨h, hv⟩) ho
  cases hr : run acc pf os s with
  | outOfFuel => trivial
  | done s => rw [hr] at this; exact (coherent_false _).1 this
  | shutdown s => rw [hr] at this; exact (coherent_false _).1 this
  | abort s => rw [hr] at this; exact (coherent_false _).1 this

/-- All mode bits agree along every history without far transfers in real or vm86 mode and without
exceptions in vm86 mode (see `C33_far_violation` and `C33_vm86_violation`). -/
theorem C33_flat_partial (acc : Acc) (pf : Cpu → BitVec 16 × BitVec 32) (os : List Op) (s : Cpu)
    (h : Agree s.r) (hv : NoVmInReal s.r) (ho : Along acc pf flatOk os s) :
    (run acc pf os s).holds fun r => Agree r ∧ NoVmInReal r := by
  have := run_along acc pf flatOk (Coherent true) (fun o s h hp => exec_flat acc pf o s h hp) os s
    ((coherent_true _).2 ⟨h, hv⟩) ho
  cases hr : run acc pf os s with
  | outOfFuel => trivial
  | done s => rw [hr] at this; exact (coherent_true _).1 this
  | shutdown s => rw [hr] at this; exact (coherent_true _).1 this
  | abort s => rw [hr] at this; exact (coherent_true _).1 this

namespace ModeP

/-- A flat protected mode kernel (GDT at 0x2000, IDT at 0x1000, TSS at 0x3000). -/
def kernel : Regs := { reset with
  es := ⟨0x10#16, 0#32, 0xFFFFFFFF#32, 0xCF9300#32⟩
  cs := ⟨0x8#16, 0#32, 0xFFFFFFFF#32, 0xCF9B00#32⟩
  ss := ⟨0x10#16, 0#32, 0xFFFFFFFF#32, 0xCF9300#32⟩
  ds := ⟨0x10#16, 0#32, 0xFFFFFFFF#32, 0xCF9300#32⟩
  cr0 := 0x60000011#32
  gdtBase := 0x2000#32
  idtBase := 0x1000#32
  tr := ⟨0x28#16, 0x3000#32, 0x67#32, 0x8B00#32⟩
  esp := 0x8000#32
  hflags := 0x1E0001C#32 }

/-- Bytes at given addresses, zero elsewhere. -/
def memOf (l : List (Nat × Nat)) : Guest.Mem := fun a =>
  match l.find? (fun p => p.1 = a.toNat) with
  | some p => BitVec.ofNat 8 p.2
  | none => 0#8

/-- GDT: 0x08 flat code; 0x10 data with base 0x10000; IDT entry 13: interrupt gate to 8:0x1234;
TSS: ESP0 = 0x8000, SS0 = 0x10. -/
def tables : Guest.Mem := memOf
  [(0x2008, 0xFF), (0x2009, 0xFF), (0x200D, 0x9B), (0x200E, 0xCF),
   (0x2010, 0xFF), (0x2011, 0xFF), (0x2014, 1), (0x2015, 0x93), (0x2016, 0xCF),
   (0x1068, 0x34), (0x1069, 0x12), (0x106A, 8), (0x106D, 0x8E),
   (0x3005, 0x80), (0x3008, 0x10)]

/-- A vm86 task whose SS selector is 0. -/
def task : Regs := { kernel with
  cs := ⟨0x100#16, 0x1000#32, 0xFFFF#32, 0xFB00#32⟩
  ss := ⟨0#16, 0#32, 0xFFFF#32, 0xF300#32⟩
  eflags := 0x20002#32
  hflags := 0x1A00013#32 }

/-- Does the run end with the SS flat bit set and a base that is not 0? -/
def ssWrong : Outcome → Bool
  | .done s => s.r.hflags[23] && s.r.ss.base != 0#32
  | _ => false
/-- Does the run end with the CS flat bit set and a base that is not 0? -/
def csWrong : Outcome → Bool
  | .done s => s.r.hflags[22] && s.r.cs.base != 0#32
  | _ => false

end ModeP

/-- A protected mode kernel with a flat CS that switches to real mode and jumps to segment 0x1000
leaves the flat CS bit set: the code translated next omits the CS base 0x10000. -/
theorem C33_far_violation : Agree kernel ∧ NoVmInReal kernel ∧
    csWrong (run (fun _ _ _ _ _ => true) (fun _ => (0#16, 0#32))
      [.movCr 0 0x60000010#32, .farJmp 0x1000#16 2 0#32] ⟨kernel, tables⟩) = true := by
  refine ⟨⟨?_, ?_⟩, ?_, ?_⟩
  · constructor <;> decide
  · constructor <;> decide
  · intro h; exact absurd h (by decide)
  · decide +kernel

/-- An exception out of vm86 mode leaves the flat bit of SS set although the kernel stack segment has a
base: the next push goes to the wrong linear address. -/
theorem C33_vm86_violation : Agree task ∧ NoVmInReal task ∧
    ssWrong (exec (fun _ _ _ _ _ => true) (fun _ => (0#16, 0#32)) (.event .exn 13 0#16 0#32) ⟨task, tables⟩) = true := by
  refine ⟨⟨?_, ?_⟩, ?_, ?_⟩
  · constructor <;> decide
  · constructor <;> decide
  · intro h; exact absurd h (by decide)
  · decide +kernel

/-- cpu_sync_state in vm86 mode with a CS selector whose low bits are 0 makes the current privilege level
0; in real mode with CS = 0x1003 it makes it 3. -/
theorem C33_sync_violation :
    (AgreeCore task ∧ (syncState task).hflags.setWidth 2 = 0#2 ∧ level (syncState task) = 3#2) ∧
    (let r := { reset with cs := ⟨0x1003#16, 0x10030#32, 0xFFFF#32, 0x9B00#32⟩ }
     AgreeCore r ∧ (syncState r).hflags.setWidth 2 = 3#2 ∧ level (syncState r) = 0#2) := by
  refine ⟨⟨?_, by decide, by decide⟩, ⟨?_, by decide, by decide⟩⟩
  · constructor <;> decide
  · constructor <;> decide

-- The hypotheses are met by a history that enters protected mode, loads DS and takes an exception.
example : Along (fun _ _ _ _ _ => true) (fun _ => (0#16, 0#32)) flatOk
    [.loadSeg .ds 0x20#16, .movCr 0 0x60000011#32] ⟨reset, fun _ => 0#8⟩ := by
  refine ⟨.inr (.inl ⟨by decide, rfl, rfl⟩), fun s' h => ⟨?_, fun _ _ => trivial⟩⟩
  cases h
  exact .inr (.inl ⟨by decide, rfl, rfl⟩)

end Verif.Seg
