import Verif.Spec.CtrlRegs
import Verif.Lemmas.ModeStep
/- C34: writes of control registers. -/
namespace Verif.Seg
open Spec

theorem cr0_gp_iff (n : BitVec 32) :
    ((n &&& 1#32 = 0#32 ∧ (n &&& 0x80000000#32) >>> 31 = 1#32) ∨
        (n &&& 0x40000000#32 = 0#32 ∧ (n &&& 0x20000000#32) >>> 29 = 1#32)) ↔ ¬ ValidCr0 n := by
  have h0 := Bits.and_eq_zero (x := n) (k := 1#32) 0 rfl (by decide)
  have h30 := Bits.and_eq_zero (x := n) (k := 0x40000000#32) 30 rfl (by decide)
  have h31 : (n &&& 0x80000000#32) >>> 31 = 1#32 ↔ n[31] = true := by
    rw [show (0x80000000#32) = BitVec.twoPow 32 31 from rfl, BitVec.and_twoPow, BitVec.getLsbD_eq_getElem (by omega)]
    cases n[31] <;> simp <;> decide
  have h29 : (n &&& 0x20000000#32) >>> 29 = 1#32 ↔ n[29] = true := by
    rw [show (0x20000000#32) = BitVec.twoPow 32 29 from rfl, BitVec.and_twoPow, BitVec.getLsbD_eq_getElem (by omega)]
    cases n[29] <;> simp <;> decide
  rw [h0, h30, h31, h29, BitVec.getLsbD_eq_getElem (by omega), BitVec.getLsbD_eq_getElem (by omega)]
  unfold ValidCr0
  cases n[0] <;> cases n[31] <;> cases n[29] <;> cases n[30] <;> simp
theorem cr0Bit_eq (n : BitVec 32) (i : Nat) (hi : i < 32) :
    ((n &&& 0xE005003F#32) ||| 0x10#32).getLsbD i = cr0Bit n i := by
  have h : ∀ i : Fin 32, (0xE005003F#32 : BitVec 32).getLsbD i.val =
      decide (i.val ∈ [0, 1, 2, 3, 4, 5, 16, 18, 29, 30, 31]) ∧
      (0x10#32 : BitVec 32).getLsbD i.val = decide (i.val = 4) := by decide
  have h := h ⟨i, hi⟩
  simp only at h
  rw [BitVec.getLsbD_or, BitVec.getLsbD_and, h.1, h.2]
  unfold cr0Bit
  by_cases h4 : i = 4
  · simp [h4]
  · simp only [h4, decide_false, Bool.or_false, if_false]
    simp only [List.mem_cons, h4, false_or]
    split
    · rename_i hm; rw [decide_eq_true hm, Bool.and_true]
    · rename_i hm; rw [decide_eq_false hm, Bool.and_false]

theorem cpl0_level (r : Regs) (h : AgreeCore r) : r.hflags &&& H_CPL = 0#32 ↔ level r = 0#2 := by
  rw [← h.level]
  constructor
  · intro hh
    have := cpl_zero_bits hh
    exact (setWidth2_eq _ _).2 (by simpa using this)
  · intro hh
    have := (setWidth2_eq _ _).1 hh
    apply BitVec.eq_of_getLsbD_eq; intro i hi
    rw [BitVec.getLsbD_and]
    by_cases h0 : i = 0
    · subst h0; simp at this; simp [this.1]
    · by_cases h1 : i = 1
      · subst h1; simp at this; simp [this.2]
      · have : (3#32 : BitVec 32).getLsbD i = false := by
          rw [BitVec.getLsbD_ofNat]
          have : (3 : Nat).testBit i = false :=
            Nat.testBit_lt_two_pow (Nat.lt_of_lt_of_le (by decide : 3 < 2 ^ 2) (Nat.pow_le_pow_right (by omega) (by omega)))
          simp [this]
        simp [H_CPL, this]

/-- MOV to CR0 raises #GP(0) and changes nothing exactly when the CPL is not 0 or the combination is
invalid. -/
theorem C34_cr0_reject (acc : Acc) (s : Cpu) (n : BitVec 32) (h : AgreeCore s.r) :
    (level s.r ≠ 0#2 ∨ ¬ ValidCr0 n → instr acc (.movCr 0 n) s = .stop (.exc 13 0#16) s) ∧
    (level s.r = 0#2 → ValidCr0 n → ∃ r', instr acc (.movCr 0 n) s = .ok () ⟨r', s.mem⟩) := by
  have hl := cpl0_level s.r h
  have hg := cr0_gp_iff n
  constructor
  · intro hc
    show crM (fun r => movToCr r 0 n) s = _
    show (match movToCr s.r 0 n with
      | .gp => Res.stop (.exc GP 0#16) s
      | .abort => .stop .abort s
      | .ok r _ => .ok () { s with r := r }) = _
    unfold movToCr
    by_cases h0 : s.r.hflags &&& H_CPL = 0#32
    · have hv : ¬ ValidCr0 n := by
        rcases hc with hc | hc
        · exact absurd (hl.1 h0) hc
        · exact hc
      rw [if_neg (by simpa using h0)]
      simp only [updateCr0]
      rw [if_pos (hg.2 hv)]
    · rw [if_pos h0]
  · intro h0 hv
    show ∃ r', (match movToCr s.r 0 n with
      | .gp => Res.stop (.exc GP 0#16) s
      | .abort => .stop .abort s
      | .ok r _ => .ok () { s with r := r }) = _
    unfold movToCr
    rw [if_neg (by simpa using hl.2 h0)]
    simp only [updateCr0]
    rw [if_neg (fun hh => hg.1 hh hv)]
    exact ⟨_, rfl⟩

/-- What an accepted MOV to CR0 does: a later MOV from CR0 reads the written value (reserved bits 0, ET
1), every other register keeps its value, and the TLB is flushed whenever cached translations may be
wrong. -/
theorem C34_cr0_accept (r r' : Regs) (n : BitVec 32) (f : Flush) (h : movToCr r 0 n = .ok r' f) :
    (∀ i, i < 32 → (movFromCr r' 0).getLsbD i = cr0Bit n i) ∧
    SameButCr r r' ∧ r'.cr2 = r.cr2 ∧ r'.cr3 = r.cr3 ∧ r'.cr4 = r.cr4 ∧
    (f = .all ↔ Cr0Stale r.cr0 n) ∧ (Cr0Stale r.cr0 r'.cr0 ↔ Cr0Stale r.cr0 n) := by
  unfold movToCr at h
  split at h
  · cases h
  · simp only [updateCr0] at h
    split at h
    · cases h
    · injection h with h1 h2
      subst h1
      refine ⟨fun i hi => cr0Bit_eq n i hi, rfl, rfl, rfl, rfl, ?_, ?_⟩
      · rw [← h2]
        simp only [and_ne_and_bit _ _ 0x80000000#32 31 (by omega) rfl,
          and_ne_and_bit _ _ 0x10000#32 16 (by omega) rfl, and_ne_zero_bit _ 0x80000000#32 31 (by omega) rfl]
        unfold Cr0Stale
        split
        · rename_i hs; exact ⟨fun _ => hs, fun _ => rfl⟩
        · rename_i hs; exact ⟨fun hh => (by cases hh), fun hh => absurd hh hs⟩
      · unfold Cr0Stale
        simp

/-- A write of CR0 that succeeds never leaves paging on without protection. -/
theorem C34_cr0_valid (r r' : Regs) (n : BitVec 32) (f : Flush) (h : movToCr r 0 n = .ok r' f) :
    ValidCr0 r'.cr0 := by
  unfold movToCr at h
  split at h
  · cases h
  · simp only [updateCr0] at h
    split at h
    · cases h
    · rename_i hv
      injection h with h1 h2
      subst h1
      rw [cr0_gp_iff, Classical.not_not] at hv
      unfold ValidCr0 at hv ⊢
      simpa using hv

/-- MOV to CR4: bits outside the defined ones raise #GP(0) and change nothing; otherwise (without PAE)
a later read returns exactly the written value, other registers keep theirs, and changing PSE or PGE
flushes the TLB.  Missing: the PAE bit, on which the emulator aborts (`C34_pae_violation`). -/
theorem C34_cr4_partial (r : Regs) (n : BitVec 32) (hc : r.hflags &&& H_CPL = 0#32) :
    (¬ ValidCr4 n → movToCr r 4 n = .gp) ∧
    (ValidCr4 n → n[5] = false → ∃ r' f, movToCr r 4 n = .ok r' f ∧ movFromCr r' 4 = n ∧ SameButCr r r' ∧
      r'.cr0 = r.cr0 ∧ r'.cr2 = r.cr2 ∧ r'.cr3 = r.cr3 ∧ (f = .all ↔ Cr4Stale r.cr4 n)) := by
  have hg : n &&& 0xFFFFF800#32 = 0#32 ↔ ValidCr4 n := by
    unfold ValidCr4
    constructor
    · intro h i hi
      by_cases h32 : i < 32
      · have h1 := congrArg (fun v : BitVec 32 => v.getLsbD i) h
        have h2 : ∀ i : Fin 32, 11 ≤ i.val → (0xFFFFF800#32 : BitVec 32).getLsbD i.val = true := by decide
        simp only [BitVec.getLsbD_and, h2 ⟨i, h32⟩ hi, Bool.and_true] at h1
        simpa using h1
      · exact BitVec.getLsbD_of_ge _ _ (by omega)
    · intro h
      apply BitVec.eq_of_getLsbD_eq; intro i hi
      rw [BitVec.getLsbD_and]
      by_cases h11 : 11 ≤ i
      · simp [h i h11]
      · have h2 : ∀ i : Fin 32, ¬ 11 ≤ i.val → (0xFFFFF800#32 : BitVec 32).getLsbD i.val = false := by decide
        simp [h2 ⟨i, hi⟩ h11]
  unfold movToCr
  rw [if_neg (by simpa using hc)]
  simp only [updateCr4]
  constructor
  · intro hv
    rw [if_pos (fun h => hv (hg.1 h))]
  · intro hv h5
    rw [if_neg (by simpa using hg.2 hv), if_neg (by rw [and_ne_zero_bit n 0x20#32 5 (by omega) rfl, h5]; simp)]
    refine ⟨_, _, rfl, rfl, rfl, rfl, rfl, rfl, ?_⟩
    have h90 : r.cr4 &&& 0x90#32 = n &&& 0x90#32 ↔ (r.cr4[4] = n[4] ∧ r.cr4[7] = n[7]) := by
      constructor
      · intro h
        have h4 := congrArg (fun v : BitVec 32 => v[4]) h
        have h7 := congrArg (fun v : BitVec 32 => v[7]) h
        simp at h4 h7
        exact ⟨h4, h7⟩
      · rintro ⟨h4, h7⟩
        rw [show (0x90#32 : BitVec 32) = BitVec.twoPow 32 4 ||| BitVec.twoPow 32 7 from rfl]
        rw [BitVec.and_comm, BitVec.and_comm n]
        apply BitVec.eq_of_getLsbD_eq; intro i hi
        simp only [BitVec.getLsbD_and, BitVec.getLsbD_or, BitVec.getLsbD_twoPow]
        by_cases e4 : 4 = i
        · subst e4; simp [h4]
        · by_cases e7 : 7 = i
          · subst e7; simp [h7]
          · simp [e4, e7]
    unfold Cr4Stale
    by_cases hs : r.cr4 &&& 0x90#32 = n &&& 0x90#32
    · rw [if_neg (by simpa using hs)]
      obtain ⟨a, b⟩ := h90.1 hs
      simp [a, b]
    · rw [if_pos hs]
      simp only [true_iff]
      apply Classical.byContradiction
      intro hh
      apply hs
      rw [h90]
      constructor
      · exact Classical.byContradiction fun h => hh (.inl h)
      · exact Classical.byContradiction fun h => hh (.inr h)

/-- Setting CR4.PAE, which the guest may do at any time at CPL 0, terminates the emulator. -/
theorem C34_pae_violation (r : Regs) (hc : r.hflags &&& H_CPL = 0#32) :
    ValidCr4 0x20#32 ∧ movToCr r 4 0x20#32 = .abort := by
  constructor
  · intro i hi
    by_cases h : i < 32
    · have : ∀ i : Fin 32, 11 ≤ i.val → (0x20#32 : BitVec 32).getLsbD i.val = false := by decide
      exact this ⟨i, h⟩ hi
    · exact BitVec.getLsbD_of_ge _ _ (by omega)
  · unfold movToCr
    rw [if_neg (by simpa using hc)]
    simp [updateCr4]

/-- MOV to CR3 with paging on drops every non-global translation (all of them unless CR4.PGE is set),
MOV to CR2 stores the value; a later read returns the written value (the page directory base and the
two cache bits of CR3). -/
theorem C34_cr3 (r : Regs) (n : BitVec 32) (hc : r.hflags &&& H_CPL = 0#32) :
    (∃ r' f, movToCr r 3 n = .ok r' f ∧ movFromCr r' 3 = (n &&& 0xFFFFF018#32) ∧ SameButCr r r' ∧
      r'.cr0 = r.cr0 ∧ r'.cr2 = r.cr2 ∧ r'.cr4 = r.cr4 ∧
      (r.cr0[31] = true → f = if r.cr4[7] then .locals else .all)) ∧
    (∃ r' f, movToCr r 2 n = .ok r' f ∧ movFromCr r' 2 = n ∧ SameButCr r r' ∧
      r'.cr0 = r.cr0 ∧ r'.cr3 = r.cr3 ∧ r'.cr4 = r.cr4) := by
  unfold movToCr
  simp only [if_neg (show ¬ (r.hflags &&& H_CPL ≠ 0#32) by simpa using hc), updateCr3]
  refine ⟨⟨_, _, rfl, rfl, rfl, rfl, rfl, rfl, ?_⟩, ⟨{ r with cr2 := n }, .none, rfl, rfl, rfl, rfl, rfl, rfl⟩⟩
  intro h31
  simp only [and_ne_zero_bit _ 0x80000000#32 31 (by omega) rfl, and_ne_zero_bit _ 0x80#32 7 (by omega) rfl, h31, if_true]

/-- LMSW may set PE but never clears it, and changes only the four low bits of CR0 (to the operand);
CLTS clears only TS. -/
theorem C34_lmsw (r r' : Regs) (v : BitVec 16) (f : Flush) (hA : AgreeCore r) (h : lmsw r v = .ok r' f)
    (het : r.cr0[4] = true) :
    (r'.cr0[0] = (r.cr0[0] || v[0])) ∧
    (∀ i, (hi : i < 32) → 1 ≤ i → i < 4 → r'.cr0[i] = v.getLsbD i) ∧
    (∀ i, (hi : i < 32) → 4 ≤ i → r'.cr0[i] = r.cr0[i]) ∧
    SameButCr r r' ∧ r'.cr2 = r.cr2 ∧ r'.cr3 = r.cr3 ∧ r'.cr4 = r.cr4 ∧ ¬ Cr0Stale r.cr0 r'.cr0 := by
  unfold lmsw at h
  split at h
  · cases h
  · simp only [updateCr0] at h
    injection h with h1 h2
    subst h1
    have hop : (lmswOperand r v)[0] = (r.cr0[0] || v[0]) ∧ ∀ i, 1 ≤ i → i < 4 → (lmswOperand r v).getLsbD i = v.getLsbD i := by
      unfold lmswOperand
      simp only [and_ne_zero_bit r.hflags H_PE 4 (by omega) rfl, hA.pe]
      have two : ∀ b : Bool, b = false ∨ b = true := by decide
      rcases two r.cr0[0] with h0 | h0 <;> simp only [h0]
      · constructor
        · simp
        · intro i _ _
          simp only [Bool.false_eq_true, if_false, BitVec.getLsbD_setWidth]
          simp; omega
      · constructor
        · simp
        · intro i hi hi'
          have : (1#16 : BitVec 16).getLsbD i = false := by
            have : ∀ i : Fin 4, 1 ≤ i.val → (1#16 : BitVec 16).getLsbD i.val = false := by decide
            exact this ⟨i, hi'⟩ hi
          simp only [if_true, BitVec.getLsbD_setWidth, BitVec.getLsbD_or, this, Bool.or_false]
          simp; omega
    have hlow : ∀ i : Fin 32, (i.val < 4 → (0xF#32 : BitVec 32).getLsbD i.val = true ∧ (0x10#32 : BitVec 32).getLsbD i.val = false) ∧
        (4 ≤ i.val → (0xF#32 : BitVec 32).getLsbD i.val = false ∧ (0x10#32 : BitVec 32).getLsbD i.val = decide (i.val = 4)) := by decide
    have bit : ∀ i, (hi : i < 32) → (((r.cr0 &&& ~~~0xF#32) ||| (lmswOperand r v &&& 0xF#32)) ||| 0x10#32).getLsbD i =
        if i < 4 then (lmswOperand r v).getLsbD i else r.cr0.getLsbD i := by
      intro i hi
      have hl := hlow ⟨i, hi⟩
      simp only [BitVec.getLsbD_or, BitVec.getLsbD_and, BitVec.getLsbD_not]
      by_cases h4 : i < 4
      · simp [hl.1 h4, h4]
      · have hb := hl.2 (Nat.le_of_not_lt h4)
        simp only at hb
        rw [hb.1, hb.2]
        by_cases e4 : i = 4
        · subst e4; simp [het]
        · simp [h4, e4, hi]
    refine ⟨?_, ?_, ?_, rfl, rfl, rfl, rfl, ?_⟩
    · rw [← BitVec.getLsbD_eq_getElem (by omega), bit 0 (by omega), if_pos (by omega), BitVec.getLsbD_eq_getElem (by omega)]
      exact hop.1
    · intro i hi h1 h4
      rw [← BitVec.getLsbD_eq_getElem (by omega), bit i (by omega), if_pos (by omega)]
      exact hop.2 i h1 h4
    · intro i hi h4
      rw [← BitVec.getLsbD_eq_getElem (by omega), bit i (by omega), if_neg (by omega), BitVec.getLsbD_eq_getElem (by omega)]
    · unfold Cr0Stale
      have b31 := bit 31 (by omega)
      have b16 := bit 16 (by omega)
      rw [if_neg (by omega), BitVec.getLsbD_eq_getElem (by omega), BitVec.getLsbD_eq_getElem (by omega)] at b31 b16
      simp only [b31, b16]
      simp

-- Turning paging on in protected mode is accepted and flushes the TLB.
example : ValidCr0 0xE0000011#32 ∧ Cr0Stale 0x60000011#32 0xE0000011#32 ∧ ¬ ValidCr0 0x80000010#32 ∧
    ¬ ValidCr0 0x20000010#32 := by
  unfold ValidCr0 Cr0Stale; decide

end Verif.Seg
