/-
C110: FPU instructions with a memory operand can be restarted; the FPU's instruction and data pointers.
-/
import Verif.Spec.FpuMem
import Verif.Lemmas.Bits

namespace Verif.FpuMem
open Verif.Fpu Verif.Bits

variable {μ : Type}

theorem idx0 (s : St) : idx s 0 = s.ftop % 8 := by unfold idx; omega

theorem empty_iff (s : St) : isEmpty s 0 = true ↔ ¬ HasSt0 s := by
  unfold isEmpty HasSt0
  rw [idx0, beq_iff_eq, Decidable.not_not]

theorem clr_same (s : St) : SameButC1 (clr s 0x200#16) s := by
  refine ⟨rfl, rfl, rfl, rfl, fun j hj => ?_⟩
  show (s.fstatus &&& ~~~0x200#16).getLsbD j = _
  rw [BitVec.getLsbD_and]
  by_cases h : j < 16
  · have : (~~~0x200#16).getLsbD j = true := by
      revert hj
      have := (by decide +kernel : ∀ j : Fin 16, j.val ≠ 9 → (~~~0x200#16).getLsbD j.val = true) ⟨j, h⟩
      exact this
    rw [this, Bool.and_true]
  · rw [BitVec.getLsbD_of_ge s.fstatus j (by omega), Bool.false_and]

theorem post_iff (s : St) (sw : BitVec 16) : (post s sw 0x3F#16).2 = true ↔ Unmasked s sw := by
  unfold post Sticky.fpuPost Unmasked
  dsimp only
  have key : (~~~s.fctrl &&& sw) &&& 0x3F#16 = 0#16 ↔ ¬ ∃ j, j < 6 ∧ sw.getLsbD j = true ∧ s.fctrl.getLsbD j = false := by
    constructor
    · rintro h ⟨j, hj, h1, h2⟩
      have := congrArg (fun v => v.getLsbD j) h
      simp only [BitVec.getLsbD_and, BitVec.getLsbD_not, h1, h2] at this
      have h3 : (0x3F#16).getLsbD j = true := (by decide +kernel : ∀ j : Fin 6, (0x3F#16).getLsbD j.val = true) ⟨j, hj⟩
      rw [h3] at this
      simp [show j < 16 by omega] at this
    · intro h
      refine BitVec.eq_of_getLsbD_eq fun j hj => ?_
      rw [BitVec.getLsbD_and, BitVec.getLsbD_and, BitVec.getLsbD_not, BitVec.getLsbD_zero]
      by_cases h6 : j < 6
      · cases h1 : sw.getLsbD j
        · simp
        · cases h2 : s.fctrl.getLsbD j
          · exact absurd ⟨j, h6, h1, h2⟩ h
          · simp
      · have h3 : (0x3F#16).getLsbD j = false := by
          have := (by decide +kernel : ∀ j : Fin 16, ¬ j.val < 6 → (0x3F#16).getLsbD j.val = false) ⟨j, hj⟩ h6
          exact this
        rw [h3, Bool.and_false]
  split
  · rename_i h; simp [key.1 h]
  · rename_i h
    simp only [true_iff]
    exact Classical.byContradiction fun hn => h (key.2 hn)

theorem post_popped (s : St) (sw exc : BitVec 16) : Popped s (post s sw exc).1 false :=
  ⟨rfl, rfl, rfl, fun j => by rw [if_neg (by intro h; exact absurd h.1 (by decide))]; rfl⟩

theorem popped_instr {s t : St} (h : Popped s t false) : Popped s (popInstr t) true := by
  have h0 : t.ftop = s.ftop := h.top
  have h1 : ∀ j, t.tags j = s.tags j := fun j => by rw [h.tags j, if_neg (by intro h; exact absurd h.1 (by decide))]
  refine ⟨h.ctrl, h.regs, by unfold popInstr; rw [if_pos rfl, h0], fun j => ?_⟩
  show Fpu.set t.tags (idx t 0) _ j = _
  unfold Fpu.set
  rw [idx0, h0, h1]
  by_cases hj : j = s.ftop % 8
  · rw [if_pos hj, if_pos (show true = true ∧ j = s.ftop % 8 from ⟨rfl, hj⟩), if_neg (by decide)]
  · rw [if_neg hj, if_neg (by intro hc; exact hj hc.2)]

theorem popped_clr {s t : St} {b : Bool} (h : Popped (clr s 0x200#16) t b) : Popped s t b := ⟨h.ctrl, h.regs, h.top, h.tags⟩

theorem stackFault_status (s : St) : (stackFault s 0x41#16).fstatus =
    ((if (0x41#16 &&& ~~~s.fctrl) &&& 0x3F#16 = 0#16 then s.fstatus else s.fstatus ||| 0x80#16) ||| 0x41#16) &&& ~~~0x200#16 := by
  unfold stackFault
  dsimp only
  have h1 : (0x41#16 &&& 0x27F#16) = 0x41#16 := by decide
  rw [h1, if_pos (by decide)]

theorem or_bit (a b : BitVec 16) (i : Nat) (h : b.getLsbD i = true) : (a ||| b).getLsbD i = true := by
  rw [BitVec.getLsbD_or, h, Bool.or_true]

theorem stackFault_bits (s : St) : (stackFault s 0x41#16).fstatus.getLsbD 0 = true ∧ (stackFault s 0x41#16).fstatus.getLsbD 6 = true ∧
    (stackFault s 0x41#16).fstatus.getLsbD 9 = false := by
  rw [stackFault_status]
  refine ⟨?_, ?_, ?_⟩
  · rw [BitVec.getLsbD_and, or_bit _ _ _ (by decide)]; decide
  · rw [BitVec.getLsbD_and, or_bit _ _ _ (by decide)]; decide
  · rw [BitVec.getLsbD_and, show (~~~0x200#16).getLsbD 9 = false by decide, Bool.and_false]

theorem mask_or (a : BitVec 16) : ((a ||| 0x80#16) ||| 0x41#16) &&& ~~~0x200#16 = (((a ||| 0x41#16) &&& ~~~0x200#16) ||| 0x80#16) := by
  refine BitVec.eq_of_getLsbD_eq fun j hj => ?_
  simp only [BitVec.getLsbD_or, BitVec.getLsbD_and]
  have := (by decide +kernel : ∀ j : Fin 16, (0x80#16).getLsbD j.val = true → (~~~0x200#16).getLsbD j.val = true) ⟨j, hj⟩
  cases h1 : (0x80#16).getLsbD j
  · simp
  · rw [h1] at this; rw [this rfl]; simp

theorem masked_iff (s : St) : masked s = true ↔ s.fctrl.getLsbD 0 = true := by
  unfold masked
  have : (s.fctrl &&& 1#16 = 0#16) ↔ s.fctrl.getLsbD 0 = false := by
    constructor
    · intro h
      have := congrArg (fun v => v.getLsbD 0) h
      simpa [BitVec.getLsbD_and] using this
    · intro h
      refine BitVec.eq_of_getLsbD_eq fun j hj => ?_
      rw [BitVec.getLsbD_and, BitVec.getLsbD_zero]
      by_cases h0 : j = 0
      · subst h0; rw [h, Bool.false_and]
      · have := (by decide +kernel : ∀ j : Fin 16, j.val ≠ 0 → (1#16).getLsbD j.val = false) ⟨j, hj⟩ h0
        rw [this, Bool.and_false]
  rw [bne_iff_ne, Ne, this, Bool.not_eq_false]

/-- C110: storing ST(0) to memory when it holds a value, with whatever the host's conversion gives.  If the store faults, the FPU and the
memory are as they were but for C1 (and the pointers), so the instruction can be run again; if an exception is not masked, nothing is
stored or popped and the exception is pending; otherwise the value is at the operand's address and the stack is popped if asked. -/
theorem C110_store_partial (store : BitVec 32 → BitVec 80 → μ → Option μ) (c : Cx) (i : Ins) (k : Conv) (lin junk : BitVec 32) (pop : Bool) (x : X μ)
    (h0 : HasSt0 x.fpu) :
    (¬ Unmasked x.fpu (k.sw (x.fpu.fr (x.fpu.ftop % 8))) → store lin (k.val (x.fpu.fr (x.fpu.ftop % 8))) x.mem = none →
      ∃ y, fstMem store c i k lin junk pop x = .fault y ∧ y.mem = x.mem ∧ SameButC1 y.fpu x.fpu) ∧
    (¬ Unmasked x.fpu (k.sw (x.fpu.fr (x.fpu.ftop % 8))) → ∀ m, store lin (k.val (x.fpu.fr (x.fpu.ftop % 8))) x.mem = some m →
      ∃ y, fstMem store c i k lin junk pop x = .done y ∧ y.mem = m ∧ Popped x.fpu y.fpu pop ∧ y.fpu.fstatus.getLsbD 7 = x.fpu.fstatus.getLsbD 7) ∧
    (Unmasked x.fpu (k.sw (x.fpu.fr (x.fpu.ftop % 8))) →
      ∃ y, fstMem store c i k lin junk pop x = .done y ∧ y.mem = x.mem ∧ Popped x.fpu y.fpu false ∧ y.fpu.fstatus.getLsbD 7 = true) := by
  have he : ¬ isEmpty (clr x.fpu 0x200#16) 0 = true := fun h => (empty_iff _).1 h h0
  have hv : loadSt (clr x.fpu 0x200#16) 0 = x.fpu.fr (x.fpu.ftop % 8) := by
    show x.fpu.fr ((0 + x.fpu.ftop) % 8) = _
    rw [Nat.zero_add]
  have hu : (post (clr x.fpu 0x200#16) (k.sw (x.fpu.fr (x.fpu.ftop % 8))) 0x3F#16).2 = true ↔ Unmasked x.fpu (k.sw (x.fpu.fr (x.fpu.ftop % 8))) :=
    post_iff (clr x.fpu 0x200#16) _
  unfold fstMem
  dsimp only
  rw [if_neg he, hv]
  refine ⟨fun hn hs => ?_, fun hn m hs => ?_, fun hn => ?_⟩
  · rw [if_neg (fun h => hn (hu.1 h)), hs]
    exact ⟨_, rfl, rfl, clr_same _⟩
  · have hp : (post (clr x.fpu 0x200#16) (k.sw (x.fpu.fr (x.fpu.ftop % 8))) 0x3F#16).2 = false := by
      rw [← Bool.not_eq_true]; exact fun h => hn (hu.1 h)
    rw [if_neg (by rw [hp]; decide), hs]
    refine ⟨_, rfl, rfl, ?_, ?_⟩
    · cases pop
      · exact popped_clr (post_popped _ _ _)
      · exact popped_clr (popped_instr (post_popped _ _ _))
    · have hst : (post (clr x.fpu 0x200#16) (k.sw (x.fpu.fr (x.fpu.ftop % 8))) 0x3F#16).1.fstatus.getLsbD 7 = x.fpu.fstatus.getLsbD 7 := by
        revert hp
        unfold post Sticky.fpuPost clr
        dsimp only
        split
        · intro _
          simp only [BitVec.getLsbD_or, BitVec.getLsbD_and]
          rw [show (~~~0x200#16).getLsbD 7 = true by decide, show (~~~0x473F#16).getLsbD 7 = true by decide, show (0x473F#16).getLsbD 7 = false by decide]
          simp
        · intro h; cases h
      cases pop
      · exact hst
      · exact hst
  · rw [if_pos (hu.2 hn)]
    refine ⟨_, rfl, rfl, popped_clr (post_popped _ _ _), ?_⟩
    have hp := hu.2 hn
    revert hp
    unfold post Sticky.fpuPost
    dsimp only
    split
    · intro h; cases h
    · intro _
      exact or_bit _ _ _ (by decide)

/-- C110: storing an empty ST(0), if the call of fpu_update_ptr leaves the address in EDX.  With invalid operation masked the indefinite
value is stored and the stack popped if asked, or, if the store faults, nothing but C1 changes; without, an exception is pending.  The
stack fault is recorded as an underflow (IE and SF set, C1 clear). -/
theorem C110_underflow_partial (store : BitVec 32 → BitVec 80 → μ → Option μ) (c : Cx) (i : Ins) (k : Conv) (lin : BitVec 32) (pop : Bool) (x : X μ)
    (h0 : ¬ HasSt0 x.fpu) (ht : x.fpu.ftop < 8) :
    (x.fpu.fctrl.getLsbD 0 = true → store lin k.qnan x.mem = none →
      ∃ y, fstMem store c i k lin lin pop x = .fault y ∧ y.mem = x.mem ∧ SameButC1 y.fpu x.fpu) ∧
    (x.fpu.fctrl.getLsbD 0 = true → ∀ m, store lin k.qnan x.mem = some m →
      ∃ y, fstMem store c i k lin lin pop x = .done y ∧ y.mem = m ∧ Popped x.fpu y.fpu pop ∧
        y.fpu.fstatus.getLsbD 0 = true ∧ y.fpu.fstatus.getLsbD 6 = true ∧ y.fpu.fstatus.getLsbD 9 = false ∧ y.fpu.fstatus.getLsbD 7 = x.fpu.fstatus.getLsbD 7) ∧
    (x.fpu.fctrl.getLsbD 0 = false →
      ∃ y, fstMem store c i k lin lin pop x = .done y ∧ y.mem = x.mem ∧ Popped x.fpu y.fpu false ∧
        y.fpu.fstatus.getLsbD 0 = true ∧ y.fpu.fstatus.getLsbD 6 = true ∧ y.fpu.fstatus.getLsbD 9 = false ∧ y.fpu.fstatus.getLsbD 7 = true) := by
  have he : isEmpty (clr x.fpu 0x200#16) 0 = true := (empty_iff _).2 h0
  have hm : masked (clr x.fpu 0x200#16) = true ↔ x.fpu.fctrl.getLsbD 0 = true := masked_iff _
  have hc0 : ∀ (f : BitVec 16), ((0x41#16 &&& ~~~f) &&& 0x3F#16 = 0#16) ↔ f.getLsbD 0 = true := by
    intro f
    rw [show (0x41#16 &&& ~~~f) &&& 0x3F#16 = ~~~f &&& 1#16 by bits16]
    constructor
    · intro h
      have := congrArg (fun v => v.getLsbD 0) h
      simpa [BitVec.getLsbD_and] using this
    · intro h
      refine BitVec.eq_of_getLsbD_eq fun j hj => ?_
      rw [BitVec.getLsbD_and, BitVec.getLsbD_zero]
      by_cases h0 : j = 0
      · subst h0; rw [BitVec.getLsbD_not, h]; rfl
      · have := (by decide +kernel : ∀ j : Fin 16, j.val ≠ 0 → (1#16).getLsbD j.val = false) ⟨j, hj⟩ h0
        rw [this, Bool.and_false]
  unfold fstMem
  dsimp only
  rw [if_pos he]
  refine ⟨fun h1 hs => ?_, fun h1 m hs => ?_, fun h1 => ?_⟩
  · rw [if_pos (hm.2 h1), hs]
    exact ⟨_, rfl, rfl, clr_same _⟩
  · rw [if_pos (hm.2 h1), hs]
    refine ⟨_, rfl, rfl, ?_, (stackFault_bits _).1, (stackFault_bits _).2.1, (stackFault_bits _).2.2, ?_⟩
    · cases pop
      · exact ⟨rfl, rfl, rfl, fun j => by rw [if_neg (show ¬ (false = true ∧ j = x.fpu.ftop % 8) from fun h => absurd h.1 (by decide))]; rfl⟩
      · refine ⟨rfl, rfl, rfl, fun j => ?_⟩
        show Fpu.set x.fpu.tags x.fpu.ftop 3#8 j = _
        unfold Fpu.set
        rw [Nat.mod_eq_of_lt ht]
        by_cases hj : j = x.fpu.ftop
        · rw [if_pos hj, if_pos ⟨rfl, hj⟩]
        · rw [if_neg hj, if_neg (fun h => hj h.2)]
    · have hf : (if pop then popTag (clr x.fpu 0x200#16) else clr x.fpu 0x200#16).fctrl = x.fpu.fctrl := by cases pop <;> rfl
      have hs' : (if pop then popTag (clr x.fpu 0x200#16) else clr x.fpu 0x200#16).fstatus = x.fpu.fstatus &&& ~~~0x200#16 := by cases pop <;> rfl
      dsimp only
      rw [stackFault_status, hf, if_pos ((hc0 _).2 h1), hs']
      simp only [BitVec.getLsbD_or, BitVec.getLsbD_and]
      rw [show (~~~0x200#16).getLsbD 7 = true by decide, show (0x41#16).getLsbD 7 = false by decide]
      simp
  · rw [if_neg (fun h => by rw [hm.1 h] at h1; cases h1)]
    refine ⟨_, rfl, rfl, ⟨rfl, rfl, rfl, fun j => by rw [if_neg (by intro h; exact absurd h.1 (by decide))]; rfl⟩,
      (stackFault_bits _).1, (stackFault_bits _).2.1, (stackFault_bits _).2.2, ?_⟩
    dsimp only
    rw [stackFault_status, if_neg (fun h => by
      have h2 : x.fpu.fctrl.getLsbD 0 = true := (hc0 _).1 h
      rw [h2] at h1; cases h1), mask_or]
    exact or_bit _ _ _ (by decide)

/-- C110: an instruction whose memory operand cannot be read changes nothing. -/
theorem C110_load (load : BitVec 32 → μ → Option (BitVec 80)) (c : Cx) (i : Ins) (lin : BitVec 32) (f : BitVec 80 → St → St) (x : X μ) :
    (load lin x.mem = none → readMem load c i lin f x = .fault x) ∧
    (∀ v, load lin x.mem = some v → ∃ y, readMem load c i lin f x = .done y ∧ y.mem = x.mem ∧ y.fpu = f v x.fpu) := by
  unfold readMem
  constructor
  · intro h; rw [h]
  · intro v h; rw [h]; exact ⟨_, rfl, rfl, rfl⟩

theorem fop_bits (o m : BitVec 8) : (((m.setWidth 64 ||| (o.setWidth 64 <<< 8)) &&& 0x7FF#64).setWidth 16).toNat = o.toNat % 8 * 256 + m.toNat := by
  have h : ((m.setWidth 64 ||| (o.setWidth 64 <<< 8)) &&& 0x7FF#64).setWidth 16 = ((o.setWidth 3) ++ m).setWidth 16 := by
    refine BitVec.eq_of_getLsbD_eq fun j hj => ?_
    simp only [BitVec.getLsbD_setWidth, BitVec.getLsbD_and, BitVec.getLsbD_or, BitVec.getLsbD_shiftLeft, BitVec.getLsbD_append]
    have h7 := (by decide +kernel : ∀ j : Fin 16, (0x7FF#64).getLsbD j.val = decide (j.val < 11)) ⟨j, hj⟩
    rw [show (0x7FF#64).getLsbD j = decide (j < 11) from h7]
    by_cases h8 : j < 8
    · simp [h8, hj, show j < 64 by omega, show j < 11 by omega]
    · by_cases h11 : j < 11
      · simp [h8, h11, hj, show j < 64 by omega, show j - 8 < 64 by omega, show j - 8 < 3 by omega, BitVec.getLsbD_of_ge m j (by omega)]
      · simp [h8, h11, hj, show ¬ (j - 8 < 3) by omega]
  rw [h, BitVec.toNat_setWidth, BitVec.toNat_append, ← Nat.shiftLeft_add_eq_or_of_lt m.isLt, Nat.shiftLeft_eq, BitVec.toNat_setWidth]
  have := m.isLt
  omega

theorem arg_fop (v : BitVec 64) (hv : v &&& 0x7FF#64 = v) (t : Bool) (o : BitVec 16) (e : BitVec 32) :
    (((if t then (1#64 <<< 63) ||| (v <<< 48) ||| (o.setWidth 64 <<< 32) ||| e.setWidth 64 else v <<< 48) >>> 48) &&& 0x7FF#64) = v := by
  rw [← hv]
  refine BitVec.eq_of_getLsbD_eq fun j hj => ?_
  rw [BitVec.getLsbD_and, BitVec.getLsbD_ushiftRight]
  have h7 := (by decide +kernel : ∀ j : Fin 64, (0x7FF#64).getLsbD j.val = decide (j.val < 11)) ⟨j, hj⟩
  rw [show (0x7FF#64).getLsbD j = decide (j < 11) from h7]
  by_cases h11 : j < 11
  · cases t
    · rw [if_neg (by decide), BitVec.getLsbD_shiftLeft, hv]
      simp [h11, show 48 + j < 64 by omega]
    · rw [if_pos rfl]
      simp only [BitVec.getLsbD_or, BitVec.getLsbD_shiftLeft, BitVec.getLsbD_setWidth]
      rw [hv]
      simp [h11, show 48 + j < 64 by omega, show 48 + j < 63 by omega, BitVec.getLsbD_of_ge o (48 + j - 32) (by omega), BitVec.getLsbD_of_ge e (48 + j) (by omega)]
  · rw [BitVec.getLsbD_and, show (0x7FF#64).getLsbD j = decide (j < 11) from h7]
    simp [h11]

theorem arg_mem (v : BitVec 64) (o : BitVec 16) (e : BitVec 32) :
    (((1#64 <<< 63) ||| (v <<< 48) ||| (o.setWidth 64 <<< 32) ||| e.setWidth 64) &&& (1#64 <<< 63)) ≠ 0#64 ∧
    (((((1#64 <<< 63) ||| (v <<< 48) ||| (o.setWidth 64 <<< 32) ||| e.setWidth 64) >>> 32) &&& 0xFFFF#64).setWidth 16) = o ∧
    ((((1#64 <<< 63) ||| (v <<< 48) ||| (o.setWidth 64 <<< 32) ||| e.setWidth 64) &&& 0xFFFFFFFF#64).setWidth 32) = e := by
  refine ⟨fun h => ?_, ?_, ?_⟩
  · have := congrArg (fun v => v.getLsbD 63) h
    simp at this
  · refine BitVec.eq_of_getLsbD_eq fun j hj => ?_
    simp only [BitVec.getLsbD_setWidth, BitVec.getLsbD_and, BitVec.getLsbD_ushiftRight, BitVec.getLsbD_or, BitVec.getLsbD_shiftLeft]
    have h7 := (by decide +kernel : ∀ j : Fin 16, (0xFFFF#64).getLsbD j.val = true) ⟨j, hj⟩
    rw [show (0xFFFF#64).getLsbD j = true from h7]
    simp [hj, show 32 + j < 64 by omega, show 32 + j < 63 by omega, show 32 + j < 48 by omega, show j < 64 by omega]
  · refine BitVec.eq_of_getLsbD_eq fun j hj => ?_
    simp only [BitVec.getLsbD_setWidth, BitVec.getLsbD_and, BitVec.getLsbD_or, BitVec.getLsbD_shiftLeft]
    have h7 := (by decide +kernel : ∀ j : Fin 32, (0xFFFFFFFF#64).getLsbD j.val = true) ⟨j, hj⟩
    rw [show (0xFFFFFFFF#64).getLsbD j = true from h7]
    simp [hj, show j < 64 by omega, show j < 63 by omega, show j < 48 by omega]

theorem arg_reg (v : BitVec 64) (hv : v &&& 0x7FF#64 = v) : (v <<< 48) &&& (1#64 <<< 63) = 0#64 := by
  rw [← hv]
  refine BitVec.eq_of_getLsbD_eq fun j hj => ?_
  simp only [BitVec.getLsbD_and, BitVec.getLsbD_shiftLeft, BitVec.getLsbD_zero]
  by_cases h : j = 63
  · subst h; rw [show (0x7FF#64).getLsbD (63 - 48) = false by decide]; simp
  · have := (by decide +kernel : ∀ j : Fin 64, j.val ≠ 63 → (1#64).getLsbD (j.val - 63) = true → j.val < 63) ⟨j, hj⟩ h
    by_cases h2 : j < 63
    · simp [h2]
    · omega

theorem mask_idem (w : BitVec 64) : (w &&& 0x7FF#64) &&& 0x7FF#64 = w &&& 0x7FF#64 := by rw [BitVec.and_assoc, BitVec.and_self]

/-- What fpu_update_ptr makes of its argument: the segment is the override prefix's or DS, the address the linear one. -/
theorem pointers (c : Cx) (i : Ins) (ebx : BitVec 32) (old : Ptrs) :
    PointsTo (updatePtr c (ptrArg c i ebx) old) old c i (if i.isMem then some (i.over.getD .ds, ebx) else none) := by
  have hv := mask_idem (i.modrm.setWidth 64 ||| (i.opcode.setWidth 64 <<< 8))
  have hf := fop_bits i.opcode i.modrm
  unfold updatePtr ptrArg
  dsimp only
  generalize (i.modrm.setWidth 64 ||| (i.opcode.setWidth 64 <<< 8)) &&& 0x7FF#64 = v at hv hf
  have ho := arg_fop v hv i.isMem (c.off i.seg) ebx
  cases hm : i.isMem with
  | true =>
    rw [hm, if_pos rfl] at ho
    obtain ⟨a1, a2, a3⟩ := arg_mem v (c.off i.seg) ebx
    simp only [if_true]
    rw [if_pos a1]
    exact ⟨⟨rfl, rfl⟩, by dsimp only; rw [ho]; exact hf, by dsimp only; rw [a2]; rfl, a3⟩
  | false =>
    rw [hm, if_neg (by decide)] at ho
    have a1 := arg_reg v hv
    simp only [Bool.false_eq_true, if_false]
    rw [if_neg (by rw [a1]; exact fun h => h rfl)]
    exact ⟨⟨rfl, rfl⟩, by dsimp only; rw [ho]; exact hf, rfl, rfl⟩

/-- C110: after an FPU instruction that is not a control instruction, FCS:FIP is its address and FOP its opcode; FDS:FDP is its operand
if that is in memory, in a segment of base zero that is DS or named by a prefix, and unchanged if it has none. -/
theorem C110_pointers_partial (store : BitVec 32 → BitVec 80 → μ → Option μ) (load : BitVec 32 → μ → Option (BitVec 80)) (c : Cx) (i : Ins) (x y : X μ) :
    (i.isMem = false → ∀ ebx f, regIns c i ebx f x = .done y → PointsTo y.ptr x.ptr c i none) ∧
    (i.isMem = true → ∀ (seg : SegR) (base offset : BitVec 32), base = 0#32 → (i.over = some seg ∨ i.over = none ∧ seg = .ds) →
      (∀ k junk pop, fstMem store c i k (base + offset) junk pop x = .done y → PointsTo y.ptr x.ptr c i (some (seg, offset))) ∧
      (∀ f, readMem load c i (base + offset) f x = .done y → PointsTo y.ptr x.ptr c i (some (seg, offset)))) := by
  constructor
  · intro hm ebx f h
    have := pointers c i ebx x.ptr
    rw [hm, if_neg (by decide)] at this
    cases h
    exact this
  · intro hm seg base offset hb hs
    have := pointers c i (base + offset) x.ptr
    rw [hm, if_pos rfl] at this
    have h1 : i.over.getD .ds = seg := by
      rcases hs with h | ⟨h, h'⟩
      · rw [h]; rfl
      · rw [h, h']; rfl
    have h2 : base + offset = offset := by rw [hb, BitVec.zero_add]
    rw [h1] at this
    have key : PointsTo (updatePtr c (ptrArg c i (base + offset)) x.ptr) x.ptr c i (some (seg, offset)) :=
      ⟨this.code, this.op, this.data.1, this.data.2.trans h2⟩
    constructor
    · intro k junk pop h
      have hp : y.ptr = updatePtr c (ptrArg c i (base + offset)) x.ptr := by
        revert h
        unfold fstMem
        dsimp only
        split
        · split
          · split
            · intro h; cases h
            · intro h; cases h; rfl
          · intro h; cases h; rfl
        · split
          · intro h; cases h; rfl
          · split
            · intro h; cases h
            · intro h; cases h; rfl
      rw [hp]; exact key
    · intro f h
      have hp : y.ptr = updatePtr c (ptrArg c i (base + offset)) x.ptr := by
        revert h
        unfold readMem
        split
        · intro h; cases h
        · intro h; cases h; rfl
      rw [hp]; exact key

/-- C110: FNINIT clears the pointers. -/
theorem C110_fninit (x : X μ) : ∃ y, fninitX x = .done y ∧ y.ptr = ⟨0#16, 0#32, 0#16, 0#32, 0#16⟩ ∧ y.mem = x.mem := ⟨_, rfl, rfl, rfl⟩

namespace FpuMemP

/-- Memory with one byte per address that can hold a whole operand; stores at and above 0x1000 fault. -/
abbrev Mm := List (BitVec 32 × BitVec 80)
def st (a : BitVec 32) (v : BitVec 80) (m : Mm) : Option Mm := if a < 0x1000#32 then some ((a, v) :: m) else none
def ld (a : BitVec 32) (m : Mm) : Option (BitVec 80) := if a < 0x1000#32 then some ((m.lookup a).getD 0#80) else none
/-- Selectors: CS 8, SS 0x18, the others 0x10. -/
def cx : Cx := ⟨fun o => if o = 1#16 then 8#16 else if o = 2#16 then 0x18#16 else 0x10#16, fun | .cs => 1#16 | .ss => 2#16 | _ => 3#16, 0x401000#32⟩
/-- FSTP m80: DB /7, with [EBP]-like and [EDI]-like operands (mod 1). -/
def ins : Ins := ⟨0xDB#8, 0x7F#8, none⟩
def insBp : Ins := ⟨0xDB#8, 0x7D#8, none⟩
def conv : Conv := ⟨id, fun _ => 0x20#16, qnan⟩
def full : X Mm := ⟨⟨0x37F#16, 0x200#16, 3, fun _ => 0#8, fun j => BitVec.ofNat 80 (j + 100)⟩, ⟨0#16, 0#32, 0#16, 0#32, 0#16⟩, []⟩
def empty : X Mm := { full with fpu := { full.fpu with tags := fun _ => 3#8 } }

def show' : Out Mm → Bool × Nat × Nat × List (Nat × Nat) × List Nat
  | .done y => (true, y.fpu.fstatus.toNat, y.fpu.ftop, y.mem.map (fun p => (p.1.toNat, p.2.toNat)), [y.ptr.fcs.toNat, y.ptr.fip.toNat, y.ptr.fds.toNat, y.ptr.fdp.toNat, y.ptr.fop.toNat])
  | .fault y => (false, y.fpu.fstatus.toNat, y.fpu.ftop, y.mem.map (fun p => (p.1.toNat, p.2.toNat)), [y.ptr.fcs.toNat, y.ptr.fip.toNat, y.ptr.fds.toNat, y.ptr.fdp.toNat, y.ptr.fop.toNat])

-- the hypotheses of the theorems: a full and an empty ST(0), a store that works and one that faults
example : HasSt0 full.fpu ∧ ¬ HasSt0 empty.fpu ∧ ¬ Unmasked full.fpu (conv.sw (full.fpu.fr (full.fpu.ftop % 8))) := by
  refine ⟨by unfold HasSt0; decide, by unfold HasSt0; decide, ?_⟩
  rintro ⟨j, hj, h1, h2⟩
  have := (by decide +kernel : ∀ j : Fin 6, (0x20#16).getLsbD j.val = true → (0x37F#16).getLsbD j.val = false → False) ⟨j, hj⟩ h1 h2
  exact this
example : Unmasked { full.fpu with fctrl := 0x35F#16 } 0x20#16 := ⟨5, by decide, by decide, by decide⟩
example : show' (fstMem st cx ins conv 0x123#32 7#32 true full) = (true, 0x20, 4, [(0x123, 103)], [8, 0x401000, 0x10, 0x123, 0x37F]) := by decide +kernel
example : show' (fstMem st cx ins conv 0x123#32 0x123#32 true empty) = (true, 0x41, 4, [(0x123, qnan.toNat)], [8, 0x401000, 0x10, 0x123, 0x37F]) := by decide +kernel
example : show' (readMem ld cx ins 0x123#32 (fun v s => ldMem s v 0#16) empty) = (true, 0, 2, [], [8, 0x401000, 0x10, 0x123, 0x37F]) := by decide +kernel

end FpuMemP

open FpuMemP

/-- C110 fails: a store that faults leaves C1 cleared and the pointers at the faulting instruction. -/
theorem C110_fault_violation : ∃ (x y : X Mm), HasSt0 x.fpu ∧ fstMem st cx ins conv 0x2000#32 0#32 true x = .fault y ∧
    x.fpu.fstatus.getLsbD 9 = true ∧ y.fpu.fstatus.getLsbD 9 = false ∧ y.ptr ≠ x.ptr :=
  ⟨full, _, by unfold HasSt0; decide, rfl, by decide, by decide, by decide +kernel⟩

/-- C110 fails: with ST(0) empty and invalid operation masked, the indefinite value goes wherever the called helper left EDX, not to the operand. -/
theorem C110_address_violation (junk : BitVec 32) (hj : junk < 0x1000#32) (hn : junk ≠ 0x123#32) :
    ∃ (x y : X Mm), ¬ HasSt0 x.fpu ∧ fstMem st cx ins conv 0x123#32 junk true x = .done y ∧ y.mem = [(junk, qnan)] ∧ ld 0x123#32 y.mem ≠ some qnan := by
  refine ⟨empty, ⟨stackFault (popTag (clr empty.fpu 0x200#16)) 0x41#16, updatePtr cx (ptrArg cx ins 0x123#32) empty.ptr, [(junk, qnan)]⟩, by unfold HasSt0; decide, ?_, rfl, ?_⟩
  · have hs : st junk conv.qnan empty.mem = some [(junk, qnan)] := by unfold st; rw [if_pos hj]; rfl
    unfold fstMem
    dsimp only
    rw [if_pos (by decide), if_pos (by decide), hs]
    rfl
  · unfold ld
    rw [if_pos (by decide)]
    have : List.lookup 0x123#32 [(junk, qnan)] = none := by
      simp only [List.lookup]
      have : (0x123#32 == junk) = false := by rw [beq_eq_false_iff_ne]; exact fun h => hn h.symm
      rw [this]
    rw [this]
    decide

/-- C110 fails: FDP is the linear address, and FDS is DS for an operand the stack segment is the default of. -/
theorem C110_pointers_violation : ∃ (x y : X Mm), fstMem st cx insBp conv (0x800#32 + 4#32) 0#32 true x = .done y ∧
    cx.sel .ss = 0x18#16 ∧ y.ptr.fds = 0x10#16 ∧ y.ptr.fdp = 0x804#32 ∧ ¬ PointsTo y.ptr x.ptr cx insBp (some (.ss, 4#32)) := by
  refine ⟨full, _, rfl, by decide, by decide +kernel, by decide +kernel, fun h => ?_⟩
  exact absurd h.data.2 (by decide +kernel)

/-- C110: the operand is in memory exactly if the two upper bits of the ModRM byte are not both set. -/
theorem C110_operand (i : Ins) : i.isMem = true ↔ ¬ (i.modrm.getLsbD 6 = true ∧ i.modrm.getLsbD 7 = true) := by
  unfold Ins.isMem
  generalize i.modrm = m
  have key : ∀ k : Fin 256, (BitVec.ofFin (w := 8) k >>> 6 != 3#8) = true ↔
      ¬ ((BitVec.ofFin (w := 8) k).getLsbD 6 = true ∧ (BitVec.ofFin (w := 8) k).getLsbD 7 = true) := by decide +kernel
  exact key m.toFin

end Verif.FpuMem
