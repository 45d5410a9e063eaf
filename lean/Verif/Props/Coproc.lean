import Verif.Spec.Coproc
import Verif.Props.PrivEx
import Verif.Props.CodeLinks
/-
C87: code translated for one mode is not executed in another one.
C88: availability of the coprocessor.
-/
namespace Verif.Coproc
open Seg Seg.Spec Priv Spec

theorem key_bits (h h' e e' : BitVec 32) (hk : Tc.modeOf h e = Tc.modeOf h' e') (i : Nat) :
    (Tc.HFLG_CONST.getLsbD i = true → h'.getLsbD i = h.getLsbD i) ∧ (Tc.EFLAGS_CONST.getLsbD i = true → e'.getLsbD i = e.getLsbD i) := by
  have hd : Tc.HFLG_CONST &&& Tc.EFLAGS_CONST = 0#32 := by decide
  have hd' : (Tc.HFLG_CONST.getLsbD i && Tc.EFLAGS_CONST.getLsbD i) = false := by
    rw [← BitVec.getLsbD_and, hd]; simp
  have hk' := congrArg (fun x : BitVec 32 => x.getLsbD i) hk
  unfold Tc.modeOf at hk'
  simp only [BitVec.getLsbD_or, BitVec.getLsbD_and] at hk'
  refine ⟨fun a => ?_, fun a => ?_⟩
  · rw [a] at hd' hk'
    have : Tc.EFLAGS_CONST.getLsbD i = false := by simpa using hd'
    rw [this] at hk'
    simpa using hk'.symm
  · rw [a] at hd' hk'
    have : Tc.HFLG_CONST.getLsbD i = false := by simpa using hd'
    rw [this] at hk'
    simpa using hk'.symm

/-- The masked mode bits are the same. -/
theorem and_key {x y m M : BitVec 32} (hM : m &&& M = m) (hk : ∀ i, M.getLsbD i = true → y.getLsbD i = x.getLsbD i) : y &&& m = x &&& m := by
  apply BitVec.eq_of_getLsbD_eq
  intro i _
  rw [BitVec.getLsbD_and, BitVec.getLsbD_and]
  cases hm : m.getLsbD i with
  | false => simp
  | true =>
    have : M.getLsbD i = true := by
      have := congrArg (fun x : BitVec 32 => x.getLsbD i) hM
      simp only [BitVec.getLsbD_and, hm] at this
      simpa using this
    rw [hk i this]

/-- The key of a block of code (mode bits and flags) determines everything of the architecture that the translator consults:
mode, privilege level, operand and stack size, IOPL, TF, RF, and the control bits of CR0 and CR4. -/
theorem C87_architecture (r r' : Regs) (h : AgreeCore r) (h' : AgreeCore r') 
    (hk : Tc.modeOf r.hflags r.eflags = Tc.modeOf r'.hflags r'.eflags) : Spec.SameMode r r' := by
  have k := key_bits _ _ _ _ hk
  have kh : ∀ i (hi : i < 32), Tc.HFLG_CONST.getLsbD i = true → r'.hflags[i] = r.hflags[i] := fun i hi a => by
    rw [← BitVec.getLsbD_eq_getElem, ← BitVec.getLsbD_eq_getElem]; exact (k i).1 a
  have ke : ∀ i (hi : i < 32), Tc.EFLAGS_CONST.getLsbD i = true → r'.eflags[i] = r.eflags[i] := fun i hi a => by
    rw [← BitVec.getLsbD_eq_getElem, ← BitVec.getLsbD_eq_getElem]; exact (k i).2 a
  have pe : r'.cr0[0] = r.cr0[0] := by rw [← h.pe, ← h'.pe]; exact kh 4 (by omega) (by decide)
  refine ⟨?_, ?_, ?_, ?_, ?_, ke 8 (by omega) (by decide), ke 16 (by omega) (by decide), pe, ?_, ?_, ?_, ?_, ?_, ?_, ?_, ?_, ?_⟩
  · unfold Seg.Spec.mode
    rw [pe, ke 17 (by omega) (by decide)]
  · rw [← h.level, ← h'.level]
    apply BitVec.eq_of_getLsbD_eq
    intro i hi
    rw [BitVec.getLsbD_setWidth, BitVec.getLsbD_setWidth, (k i).1]
    have : ∀ j : Fin 2, Tc.HFLG_CONST.getLsbD j.val = true := by decide
    exact this ⟨i, hi⟩
  · rw [← h.code32, ← h'.code32]; exact kh 2 (by omega) (by decide)
  · rw [← h.stack32, ← h'.stack32]; exact kh 3 (by omega) (by decide)
  · unfold Seg.Spec.iopl
    apply BitVec.eq_of_getLsbD_eq
    intro i hi
    rw [BitVec.getLsbD_extractLsb', BitVec.getLsbD_extractLsb', (k (12 + i)).2]
    have : ∀ j : Fin 2, Tc.EFLAGS_CONST.getLsbD (12 + j.val) = true := by decide
    exact this ⟨i, hi⟩
  · rw [← h.mp, ← h'.mp]; exact kh 15 (by omega) (by decide)
  · rw [← h.em, ← h'.em]; exact kh 5 (by omega) (by decide)
  · rw [← h.ts, ← h'.ts]; exact kh 10 (by omega) (by decide)
  · rw [← h.ne, ← h'.ne]; exact kh 7 (by omega) (by decide)
  · rw [← h.vme, ← h'.vme]; exact kh 19 (by omega) (by decide)
  · rw [← h.pvi, ← h'.pvi]; exact kh 20 (by omega) (by decide)
  · rw [← h.osfxsr, ← h'.osfxsr]; exact kh 9 (by omega) (by decide)
  · rw [← h.osxmm, ← h'.osxmm]; exact kh 11 (by omega) (by decide)
  · intro i h1 h2
    refine (k i).1 ?_
    have : ∀ j : Fin 6, Tc.HFLG_CONST.getLsbD (21 + j.val) = true := by decide
    have := this ⟨i - 21, by omega⟩
    rwa [show 21 + (i - 21) = i by omega] at this

/-- The decisions taken when code is translated are those of the state in which the code with the same key is executed: privilege checks,
what CLI, STI, POPF and PUSHF do, stack width and base, availability of the coprocessor. -/
theorem C87_decisions (s s' : Priv.St) (hk : Tc.modeOf s.c.r.hflags s.c.r.eflags = Tc.modeOf s'.c.r.hflags s'.c.r.eflags) :
    user s' = user s ∧ pe s' = pe s ∧ vm s' = vm s ∧ ioplN s' = ioplN s ∧ vme s' = vme s ∧ ifAct s' = ifAct s ∧
    (∀ k, popfMask s' k = popfMask s k) ∧ (view s').ss32 = (view s).ss32 ∧ (view s').ssZero = (view s).ssZero ∧
    (∀ c, gate s'.c.r.hflags c = gate s.c.r.hflags c) ∧ simdExc s'.c.r.hflags = simdExc s.c.r.hflags ∧
    peNotVm s'.c.r = peNotVm s.c.r := by
  have k := key_bits _ _ _ _ hk
  have kh : ∀ m, m &&& Tc.HFLG_CONST = m → s'.c.r.hflags &&& m = s.c.r.hflags &&& m := fun m hm => and_key hm fun i => (k i).1
  have ke : ∀ m, m &&& Tc.EFLAGS_CONST = m → s'.c.r.eflags &&& m = s.c.r.eflags &&& m := fun m hm => and_key hm fun i => (k i).2
  have e1 : user s' = user s := by unfold user; rw [kh _ (by decide)]
  have e2 : pe s' = pe s := by unfold pe; rw [kh _ (by decide)]
  have e3 : vm s' = vm s := by unfold vm; rw [ke _ (by decide)]
  have e4 : ioplN s' = ioplN s := by unfold ioplN; rw [ke _ (by decide)]
  have e5 : vme s' = vme s := by unfold vme; rw [kh _ (by decide)]
  have e6 : vmePvi s' = vmePvi s := by unfold vmePvi; rw [kh _ (by decide)]
  have e7 := kh H_CPL (by decide)
  refine ⟨e1, e2, e3, e4, e5, ?_, ?_, ?_, ?_, ?_, ?_, ?_⟩
  · unfold ifAct; rw [e2, e4, e6, e7]
  · intro j; unfold popfMask; rw [e3, e4, e7]
  · unfold view; dsimp only; rw [kh _ (by decide)]
  · unfold view; dsimp only; rw [kh _ (by decide)]
  · intro c
    cases c with
    | x87 => unfold gate; dsimp only; rw [kh _ (by decide)]
    | fwait => unfold gate; dsimp only; rw [kh _ (by decide)]
    | emms => unfold gate; dsimp only; rw [kh (EM ||| TS) (by decide), kh TS (by decide)]
    | mmx => unfold gate; dsimp only; rw [kh (TS ||| EM) (by decide)]
    | sse => unfold gate; dsimp only; rw [kh (TS ||| OSFXSR ||| EM) (by decide), kh TS (by decide)]
  · unfold simdExc; rw [kh _ (by decide)]
  · unfold peNotVm; rw [kh _ (by decide), ke _ (by decide)]

/-- Whatever was done before, a block that is executed while the registers are `r` was translated for registers `r0` of the same mode
(`t.flags` is the key it was translated with).  Missing: histories excluded by `Ok` (see C47). -/
theorem C87_executed_partial (d : Tc.Decoder) (hl : Tc.LenOk d) (mem : BitVec 32 → BitVec 8) (map : BitVec 20 → BitVec 20)
    (os : List Tc.Op) (hs : Tc.All d Tc.Ok (Tc.reset mem map) os) (o : Tc.Op) (t : Tc.Tc)
    (he : (Tc.step d (Tc.hist d (Tc.reset mem map) os) o).1 = some t)
    (r r0 : Regs) (h : AgreeCore r) (h0 : AgreeCore r0)
    (hr : (Tc.hist d (Tc.reset mem map) os).flags = Tc.modeOf r.hflags r.eflags) (ht : t.flags = Tc.modeOf r0.hflags r0.eflags) :
    Spec.SameMode r0 r := by
  have := (Tc.C47_key_partial d hl mem map os hs o t he).2.1
  exact C87_architecture r0 r h0 h (by rw [← ht, this, hr])

theorem pick (h : BitVec 32) (i : Nat) (hi : i < 32) (m : BitVec 32) (hm : m = BitVec.twoPow 32 i) :
    h &&& m = if h[i] = true then m else 0#32 := by
  subst hm
  rw [BitVec.and_twoPow, BitVec.getLsbD_eq_getElem hi]

theorem and_or (h a b : BitVec 32) : h &&& (a ||| b) = (h &&& a) ||| (h &&& b) := by
  apply BitVec.eq_of_getLsbD_eq
  intro i _
  simp only [BitVec.getLsbD_and, BitVec.getLsbD_or]
  cases h.getLsbD i <;> simp

/-- The check in terms of bits. -/
def gateB (em ts mp fx : Bool) : Cop → Option Nat
  | .x87 => if em || ts then some 7 else none
  | .fwait => if mp && ts then some 7 else none
  | .emms => if em || ts then some (if ts then 7 else 6) else none
  | .mmx => if em || ts then some (if em then 6 else 7) else none
  | .sse => if ts || em || !fx then some (if ts then 7 else 6) else none

theorem gate_bits (r : Regs) (h : AgreeCore r) (c : Cop) : gate r.hflags c = gateB r.cr0[2] r.cr0[3] r.cr0[1] r.cr4[9] c := by
  have b5 := pick r.hflags 5 (by omega) EM rfl
  have b10 := pick r.hflags 10 (by omega) TS rfl
  have b15 := pick r.hflags 15 (by omega) MP rfl
  have b9 := pick r.hflags 9 (by omega) OSFXSR rfl
  rw [h.em] at b5
  rw [h.ts] at b10
  rw [h.mp] at b15
  rw [h.osfxsr] at b9
  cases c <;> unfold gate <;> dsimp only [gateB] <;> simp only [and_or, b5, b10, b15, b9] <;>
    cases r.cr0[2] <;> cases r.cr0[3] <;> cases r.cr0[1] <;> cases r.cr4[9] <;> decide

/-- Whether an x87, MMX or SSE instruction is executed, and which exception it raises instead.  Missing: EMMS and SSE instructions with
TS set and EM set or OSFXSR clear (`C88_priority_violation`: #NM instead of #UD). -/
theorem C88_gate_partial (r : Regs) (h : AgreeCore r) (c : Cop)
    (hp : r.cr0[3] = true → (c = .emms → r.cr0[2] = false) ∧ (c = .sse → r.cr0[2] = false ∧ r.cr4[9] = true)) :
    gate r.hflags c = unavailable r c := by
  rw [gate_bits r h]
  revert hp
  unfold unavailable
  generalize r.cr0[2] = a
  generalize r.cr0[3] = b
  generalize r.cr0[1] = m
  generalize r.cr4[9] = f
  intro hp
  cases c <;> cases a <;> cases b <;> cases m <;> cases f <;> simp_all [gateB]

/-- In every state, an instruction is executed exactly if the SDM says it is available. -/
theorem C88_available (r : Regs) (h : AgreeCore r) (c : Cop) : (gate r.hflags c).isSome = (unavailable r c).isSome := by
  rw [gate_bits r h]
  unfold unavailable
  generalize r.cr0[2] = a
  generalize r.cr0[3] = b
  generalize r.cr0[1] = m
  generalize r.cr4[9] = f
  cases c <;> cases a <;> cases b <;> cases m <;> cases f <;> rfl

/-- An unmasked SIMD floating-point condition raises #XF, or #UD if CR4.OSXMMEXCPT is clear. -/
theorem C88_simd (r : Regs) (h : AgreeCore r) : simdExc r.hflags = if r.cr4[10] = true then 19 else 6 := by
  unfold simdExc
  have b := pick r.hflags 11 (by omega) OSXMM rfl
  rw [h.osxmm] at b
  rw [b]
  cases r.cr4[10] <;> decide

/-- Lazy switching: while CR0.TS is set, no program above level 0, of any length, completes an instruction that changes the coprocessor
state; so the first use traps and the state is that of the previous owner. -/
theorem C88_lazy {X : Type} (acc : Acc) (s s' : Priv.St) (x x' : X) (is : List (Instr X)) (h : AgreeCore s.c.r) (hts : s.c.r.cr0[3] = true)
    (r : Runs acc (fun s i => Spec.Executed i ∧ level s.c.r ≠ 0#2) s x is s' x') : x' = x ∧ s'.c.r.cr0[3] = true := by
  induction r with
  | nil s x => exact ⟨rfl, hts⟩
  | @cons s t u x y z i is hp e _ ih =>
    have key : y = x ∧ AgreeCore t.c.r ∧ t.c.r.cr0[3] = true := by
      cases i with
      | base i =>
        unfold step at e
        dsimp only at e
        split at e
        · rename_i t' hs
          cases e
          refine ⟨rfl, step_agree acc i s _ h hp.2 hp.1 hs, ?_⟩
          have := (step_regs acc i s _ h hp.2 hp.1 hs).cr0
          rw [this]; exact hts
        · cases e
      | cop c f g a d sp ip m =>
        unfold step at e
        dsimp only at e
        by_cases hc : c = .fwait
        · subst hc
          split at e
          · cases e
          · split at e
            · rename_i t' hs
              rw [if_pos rfl] at e
              cases e
              refine ⟨rfl, step_agree acc (.plain g a d sp ip m) s _ h hp.2 trivial hs, ?_⟩
              rw [(step_regs acc (.plain g a d sp ip m) s _ h hp.2 trivial hs).cr0]; exact hts
            · cases e
        · rw [gate_bits s.c.r h, hts] at e
          cases c <;> first | exact absurd rfl hc | (cases s.c.r.cr0[2] <;> cases s.c.r.cr4[9] <;> simp [gateB] at e)
    obtain ⟨rfl, ha, ht⟩ := key
    exact ih ha ht

open EventP SegP PrivP

namespace CopP
/-- A user program with TS set, and the kernel with TS and EM set and OSFXSR clear. -/
def lazyUser : Priv.St := mk ⟨{ prog.r with cr0 := prog.r.cr0 ||| 8#32, hflags := prog.r.hflags ||| 0x400#32 }, prog.mem⟩
def both : Regs := { kprog.r with cr0 := kprog.r.cr0 ||| 12#32, hflags := kprog.r.hflags ||| 0x420#32 }
def avail : Regs := { kprog.r with cr4 := 0x200#32, hflags := kprog.r.hflags ||| 0x200#32 }
end CopP
open CopP

theorem lazy_agree : AgreeCore lazyUser.c.r := by constructor <;> decide
theorem both_agree : AgreeCore both := by constructor <;> decide
theorem avail_agree : AgreeCore avail := by constructor <;> decide

example : gate avail.hflags .sse = none ∧ gate avail.hflags .x87 = none ∧ gate both.hflags .mmx = some 6 ∧ gate both.hflags .x87 = some 7 ∧
    unavailable avail .sse = none ∧ gate kprog.r.hflags .sse = some 6 := by decide

/-- Not a segment, transfer or control register instruction. -/
def CopP.simple : Instr Nat → Bool
  | .base (.sys _) => false
  | _ => true

/-- Run a program; every instruction must complete and be executed above level 0. -/
def CopP.runCop (acc : Acc) : List (Instr Nat) → Priv.St → Nat → Option (Priv.St × Nat)
  | [], s, x => some (s, x)
  | i :: is, s, x => match step acc i s x with
    | none => none
    | some (t, y) => if simple i && level s.c.r != 0#2 then runCop acc is t y else none

theorem runs_of {acc : Acc} : ∀ (is : List (Instr Nat)) (s s' : Priv.St) (x x' : Nat), runCop acc is s x = some (s', x') →
    Runs acc (fun s i => Spec.Executed i ∧ level s.c.r ≠ 0#2) s x is s' x'
  | [], s, s', x, x', h => by cases h; exact .nil s x
  | i :: is, s, s', x, x', h => by
    unfold runCop at h
    split at h
    · cases h
    · rename_i t y he
      split at h
      · rename_i hh
        rw [Bool.and_eq_true] at hh
        refine .cons ⟨?_, by simpa using hh.2⟩ he (runs_of is _ s' _ x' h)
        cases i with
        | base i => cases i with
          | sys o => cases hh.1
          | _ => trivial
        | cop => trivial
      · cases h

/-- A user program pushes the flags, waits for the coprocessor, and pops them: the hypotheses of `C88_lazy` are met. -/
example : ∃ s', Runs (X := Nat) allOk (fun s i => Spec.Executed i ∧ level s.c.r ≠ 0#2) lazyUser 5
    [.base (.pushf 4), .cop .fwait (· + 1) id 0#32 false 0x6FFC#32 0x401010#32 id, .base (.popf 4)] s' 5 := by
  have h : (match runCop allOk [.base (.pushf 4), .cop .fwait (· + 1) id 0#32 false 0x6FFC#32 0x401010#32 id, .base (.popf 4)] lazyUser 5 with
    | some (_, x) => x == 5 | none => false) = true := by decide +kernel
  revert h
  generalize hr : runCop allOk _ lazyUser 5 = o
  intro h
  cases o with
  | none => cases h
  | some p =>
    obtain ⟨s', x⟩ := p
    have : x = 5 := by simpa using h
    subst this
    exact ⟨s', runs_of _ _ _ _ _ hr⟩

/-- With TS and EM set, EMMS raises #NM, and with OSFXSR clear an SSE instruction does (SDM: #UD). -/
theorem C88_priority_violation : AgreeCore both ∧ gate both.hflags .emms = some 7 ∧ unavailable both .emms = some 6 ∧
    gate both.hflags .sse = some 7 ∧ unavailable both .sse = some 6 := by
  exact ⟨both_agree, by decide⟩

/-- Two states with the same key and different registers, and states of different mode, whose keys differ. -/
example : AgreeCore prog.r ∧ Tc.modeOf prog.r.hflags prog.r.eflags = Tc.modeOf prog.r.hflags (prog.r.eflags ^^^ 0x201#32) ∧
    Tc.modeOf prog.r.hflags prog.r.eflags ≠ Tc.modeOf lazyUser.c.r.hflags lazyUser.c.r.eflags ∧
    Tc.modeOf prog.r.hflags prog.r.eflags ≠ Tc.modeOf kprog.r.hflags kprog.r.eflags := by
  refine ⟨user_agree, by decide⟩
end Verif.Coproc
