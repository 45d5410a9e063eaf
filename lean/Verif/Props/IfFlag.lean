import Verif.Props.Isolation
import Verif.Props.Stack
/-
C86: CLI, STI, POPF and PUSHF against the tables of the SDM.
-/
namespace Verif.Priv
open Seg Seg.Spec Spec ModeP

theorem pe_bit {s : St} (h : AgreeCore s.c.r) : pe s = s.c.r.cr0[0] := by
  unfold pe
  have := and_ne_zero_bit s.c.r.hflags H_PE 4 (by omega) rfl
  rw [h.pe] at this
  cases hc : s.c.r.cr0[0] <;> simp_all

theorem vmePvi_bit {s : St} (h : AgreeCore s.c.r) : vmePvi s = (s.c.r.cr4[0] || s.c.r.cr4[1]) := by
  unfold vmePvi
  have e : s.c.r.hflags &&& 0x180000#32 = (s.c.r.hflags &&& 0x80000#32) ||| (s.c.r.hflags &&& 0x100000#32) := by bits32
  have a := and_ne_zero_bit s.c.r.hflags 0x80000#32 19 (by omega) rfl
  have b := and_ne_zero_bit s.c.r.hflags 0x100000#32 20 (by omega) rfl
  rw [h.vme] at a
  rw [h.pvi] at b
  rw [e]
  cases h0 : s.c.r.cr4[0] <;> cases h1 : s.c.r.cr4[1] <;> simp_all

/-- The reading of `ifAct` in terms of architectural registers. -/
theorem ifAct_eq {s : St} (h : AgreeCore s.c.r) : ifAct s =
    if mode s.c.r = .real then .iflag
    else if level s.c.r ≤ iopl s.c.r then .iflag
    else if s.c.r.cr4[0] || s.c.r.cr4[1] then .vif else .gp := by
  unfold ifAct
  rw [pe_bit h, vmePvi_bit h]
  have hm := mode_real_iff s.c.r
  cases hc : s.c.r.cr0[0] with
  | false => rw [if_pos (hm.2 hc)]; rfl
  | true =>
    have hn : ¬ mode s.c.r = .real := fun x => by rw [hm.1 x] at hc; cases hc
    rw [if_neg hn]
    have e : (s.c.r.hflags &&& H_CPL ≤ ioplN s) ↔ level s.c.r ≤ iopl s.c.r := by
      rw [hcpl_level h]
      unfold ioplN
      rw [iopl_eq]
      exact le2_32 _ _
    simp only [e, if_true]

/-- The control register setups for which the code decides as the SDM does: outside vm86 mode the virtual interrupt flag is
used by level 3 with PVI only, in vm86 mode with VME only. -/
def Usual (r : Regs) : Prop :=
  (mode r = .prot → iopl r < level r → r.cr4[0] = true ∨ r.cr4[1] = true → level r = 3#2 ∧ r.cr4[1] = true) ∧
  (mode r = .vm86 → iopl r ≠ 3#2 → r.cr4[1] = true → r.cr4[0] = true)

instance (r : Regs) : Decidable (Usual r) := by unfold Usual; infer_instance

/-- `IfAct` as an effect. -/
def IfAct.eff : IfAct → Effect
  | .iflag => .onIf | .vif => .onVif | .gp => .gp

theorem eff_eq {s : St} (h : AgreeCore s.c.r) (hu : Usual s.c.r) : effect s.c.r = (ifAct s).eff := by
  rw [ifAct_eq h]
  obtain ⟨h1, h2⟩ := hu
  unfold effect
  cases hm : mode s.c.r with
  | real => rw [if_pos rfl]; rfl
  | prot =>
    rw [if_neg (show ¬ (Mode.prot = Mode.real) by decide)]
    dsimp only
    by_cases hl : level s.c.r ≤ iopl s.c.r
    · rw [if_pos hl, if_pos hl]; rfl
    · rw [if_neg hl, if_neg hl]
      have h1 := h1 hm (BitVec.not_le.1 hl)
      cases h0 : s.c.r.cr4[0] <;> cases hv : s.c.r.cr4[1] <;> simp_all [IfAct.eff]
  | vm86 =>
    rw [if_neg (show ¬ (Mode.vm86 = Mode.real) by decide)]
    dsimp only
    have hl : level s.c.r = 3#2 := by unfold level; rw [hm]
    rw [hl]
    have e : (3#2 ≤ iopl s.c.r) ↔ iopl s.c.r = 3#2 := by
      generalize iopl s.c.r = x
      revert x; decide
    simp only [e]
    by_cases hi : iopl s.c.r = 3#2
    · rw [if_pos hi, if_pos hi]; rfl
    · rw [if_neg hi, if_neg hi]
      have h2 := h2 hm hi
      cases h0 : s.c.r.cr4[0] <;> cases hv : s.c.r.cr4[1] <;> simp_all [IfAct.eff]

theorem one_bit (b : Nat) (hb : b = 9 ∨ b = 19) (i : Nat) (hi : i < 32) :
    (if b = 9 then 0x200#32 else 0x80000#32).getLsbD i = decide (i = b) := by
  obtain rfl | rfl := hb
  · have : ∀ i : Fin 32, (0x200#32).getLsbD i.val = decide (i.val = 9) := by decide
    exact this ⟨i, hi⟩
  · have : ∀ i : Fin 32, (0x80000#32).getLsbD i.val = decide (i.val = 19) := by decide
    exact this ⟨i, hi⟩

theorem clear_bit (e : BitVec 32) (b : Nat) (hb : b = 9 ∨ b = 19) (i : Nat) (hi : i < 32) :
    (e &&& ~~~(if b = 9 then 0x200#32 else 0x80000#32)).getLsbD i = if i = b then false else e.getLsbD i := by
  rw [BitVec.getLsbD_and, BitVec.getLsbD_not, one_bit b hb i hi]
  by_cases h : i = b <;> simp [h, hi]

theorem set_bit (e : BitVec 32) (b : Nat) (hb : b = 9 ∨ b = 19) (i : Nat) (hi : i < 32) :
    (e ||| (if b = 9 then 0x200#32 else 0x80000#32)).getLsbD i = if i = b then true else e.getLsbD i := by
  rw [BitVec.getLsbD_or, one_bit b hb i hi]
  by_cases h : i = b <;> simp [h]

/-- CLI clears IF, clears VIF or raises #GP(0), as the SDM says.  Missing: the setups outside `Usual` (`C86_cli_violation`). -/
theorem C86_cli_partial (acc : Acc) (s : St) (h : AgreeCore s.c.r) (hu : Usual s.c.r) :
    match effect s.c.r with
    | .onIf => ∃ t, step acc .cli s = .done t ∧ FlagSet s t 9 false ∧ t.inhibit = s.inhibit
    | .onVif => ∃ t, step acc .cli s = .done t ∧ FlagSet s t 19 false ∧ t.inhibit = s.inhibit
    | .gp => step acc .cli s = .stop (.exc 13 0#16) s := by
  rw [eff_eq h hu]
  have e : step acc .cli s = cli s := rfl
  rw [e]
  unfold cli
  cases ifAct s with
  | iflag => exact ⟨_, rfl, ⟨rfl, fun i hi => clear_bit _ 9 (.inl rfl) i hi⟩, rfl⟩
  | vif => exact ⟨_, rfl, ⟨rfl, fun i hi => clear_bit _ 19 (.inr rfl) i hi⟩, rfl⟩
  | gp => rfl

theorem shadow_eq (s : St) (f : BitVec 32 → BitVec 32) :
    shadow s.c.r.eflags (setFl f s) = { setFl f s with inhibit := s.inhibit || !s.c.r.eflags[9] } := by
  unfold shadow
  have := and_ne_zero_bit s.c.r.eflags 0x200#32 9 (by omega) rfl
  cases hb : s.c.r.eflags[9] with
  | true => rw [if_neg (this.2 hb)]; simp [setFl]
  | false =>
    rw [if_pos (by rw [hb] at this; simpa using this)]; simp

/-- STI sets IF (and inhibits interrupts for one instruction if IF was clear), sets VIF (#GP(0) if VIP is set) or raises
#GP(0), as the SDM says.  Missing: the setups outside `Usual` (`C86_sti_violation`). -/
theorem C86_sti_partial (acc : Acc) (s : St) (h : AgreeCore s.c.r) (hu : Usual s.c.r) :
    match effect s.c.r with
    | .onIf => ∃ t, step acc .sti s = .done t ∧ FlagSet s t 9 true ∧ t.inhibit = (s.inhibit || !s.c.r.eflags[9])
    | .onVif => if s.c.r.eflags[20] then step acc .sti s = .stop (.exc 13 0#16) s
      else ∃ t, step acc .sti s = .done t ∧ FlagSet s t 19 true
    | .gp => step acc .sti s = .stop (.exc 13 0#16) s := by
  rw [eff_eq h hu]
  have e : step acc .sti s = sti s := rfl
  rw [e]
  unfold sti
  cases ifAct s with
  | iflag =>
    dsimp only [IfAct.eff]
    rw [shadow_eq]
    exact ⟨_, rfl, ⟨rfl, fun i hi => set_bit _ 9 (.inl rfl) i hi⟩, rfl⟩
  | vif =>
    dsimp only [IfAct.eff]
    have := and_ne_zero_bit s.c.r.eflags 0x100000#32 20 (by omega) rfl
    rw [shadow_eq]
    by_cases hb : s.c.r.eflags[20] = true
    · rw [if_pos hb, if_pos (this.2 hb)]; rfl
    · rw [if_neg hb, if_neg (fun x => hb (this.1 x))]
      exact ⟨_, rfl, ⟨rfl, fun i hi => set_bit _ 19 (.inr rfl) i hi⟩⟩
  | gp => rfl

theorem esp_off (r : Regs) (k : Nat) : stackAddr r k 0 = r.ss.base + if stack32 r then r.esp else (r.esp.setWidth 16 : BitVec 16).setWidth 32 := by
  unfold stackAddr
  simp

theorem view_flat {s : St} (hz : AgreeFlat s.c.r) : Stack.Flat (view s) := by
  intro h
  apply hz.ss
  have := (and_ne_zero_bit s.c.r.hflags 0x800000#32 23 (by omega) rfl).1 (by simpa [view] using h)
  exact this

theorem view_ss32 {s : St} (h : AgreeCore s.c.r) : (view s).ss32 = stack32 s.c.r := by
  have := and_ne_zero_bit s.c.r.hflags H_SS32 3 (by omega) rfl
  rw [h.stack32] at this
  show (s.c.r.hflags &&& H_SS32 != 0#32) = _
  cases hc : stack32 s.c.r <;> simp_all

theorem addr_view {s : St} (hz : AgreeFlat s.c.r) (e : BitVec 32) : Stack.addr (view s) e = s.c.r.ss.base + e := by
  unfold Stack.addr
  by_cases h : (view s).ssZero = true
  · rw [if_pos h]
    have : s.c.r.ss.base = 0#32 := view_flat hz h
    rw [this]; simp
  · rw [if_neg h]; exact BitVec.add_comm _ _

/-- The pop of POPF reads the item on top of the stack. -/
theorem pop_item {acc : Acc} {s : St} {k v : Nat} {e : BitVec 32} (h : AgreeCore s.c.r) (hz : AgreeFlat s.c.r)
    (hp : Stack.popVal (okOf acc s) (view s) k = some (v, e)) :
    v = stackItem s.c k 0 ∧ acc s.c (stackAddr s.c.r k 0) k false 0 = true := by
  unfold Stack.popVal at hp
  rw [view_ss32 h] at hp
  unfold stackItem
  rw [esp_off]
  cases hc : stack32 s.c.r with
  | true =>
    rw [hc] at hp
    simp only [if_true, addr_view hz] at hp ⊢
    split at hp
    · cases hp; exact ⟨rfl, by assumption⟩
    · cases hp
  | false =>
    rw [hc] at hp
    simp only [addr_view hz] at hp ⊢
    simp only [Bool.false_eq_true, if_false] at hp ⊢
    split at hp
    · cases hp; exact ⟨rfl, by assumption⟩
    · cases hp

theorem vm_mode {s : St} (hv : NoVmInReal s.c.r) : vm s = true ↔ mode s.c.r = .vm86 := by
  rw [vmb]
  unfold mode
  by_cases h : s.c.r.cr0[0] = false
  · rw [if_pos h, hv h]; simp
  · rw [if_neg h]
    cases s.c.r.eflags[17] <;> simp

theorem iopl3 (s : St) : (ioplN s = 3#32) ↔ iopl s.c.r = 3#2 := by
  unfold ioplN
  rw [iopl_eq]
  show (iopl s.c.r).setWidth 32 = 3#32 ↔ _
  generalize iopl s.c.r = x
  revert x; decide

theorem ioplLt3 (s : St) : (ioplN s < 3#32) ↔ iopl s.c.r ≠ 3#2 := by
  unfold ioplN
  rw [iopl_eq]
  show (iopl s.c.r).setWidth 32 < 3#32 ↔ _
  generalize iopl s.c.r = x
  revert x; decide

theorem sens {s : St} (hv : NoVmInReal s.c.r) : (vm s && ioplN s != 3#32) = true ↔ Sensitive s.c.r := by
  rw [Bool.and_eq_true, vm_mode hv, bne_iff_ne, ne_eq, iopl3]; rfl

theorem sens' {s : St} (hv : NoVmInReal s.c.r) : (vm s && decide (ioplN s < 3#32)) = true ↔ Sensitive s.c.r := by
  rw [Bool.and_eq_true, vm_mode hv, decide_eq_true_iff, ioplLt3]; rfl

theorem vme_iff {s : St} (h : AgreeCore s.c.r) : vme s = s.c.r.cr4[0] := by
  unfold vme
  have := and_ne_zero_bit s.c.r.hflags 0x80000#32 19 (by omega) rfl
  rw [h.vme] at this
  cases hc : s.c.r.cr4[0] <;> simp_all

theorem bit_at (v i : Nat) (hi : i < 32) : (BitVec.ofNat 32 v).getLsbD i = v.testBit i := by
  rw [BitVec.getLsbD_ofNat]; simp [hi]

/-- The mask of POPF against the table. -/
theorem mask_bit {s : St} (h : AgreeCore s.c.r) (hv : NoVmInReal s.c.r) {k : Nat} (hk : k = 2 ∨ k = 4) (i : Nat) (hi : i < 32)
    (hs : Sensitive s.c.r → k = 2) :
    (arithFlag i || (popfMask s k).getLsbD i) = popfWrites (mode s.c.r) (level s.c.r) (iopl s.c.r) (k == 4) i := by
  have e0 : (s.c.r.hflags &&& H_CPL = 0#32) ↔ level s.c.r = 0#2 := by
    rw [hcpl_level h]
    generalize level s.c.r = x
    revert x; decide
  have e1 : (s.c.r.hflags &&& H_CPL ≤ ioplN s) ↔ level s.c.r ≤ iopl s.c.r := by
    rw [hcpl_level h]
    unfold ioplN
    rw [iopl_eq]
    exact le2_32 _ _
  unfold popfMask
  simp only [e0, e1, iopl3, vm_mode hv]
  have hs' : mode s.c.r = .vm86 → iopl s.c.r ≠ 3#2 → k = 2 := fun a b => hs ⟨a, b⟩
  revert hs'
  generalize level s.c.r = l
  generalize iopl s.c.r = p
  generalize mode s.c.r = m
  intro hs'
  have key : ∀ (m : Mode) (l p : BitVec 2) (i : Fin 32), 
      (arithFlag i.val || (if m = .vm86 then if p = 3#2 then 0x4500#32 ||| 0x200#32 else 0x4500#32
        else if l = 0#2 then 0x4500#32 ||| 0x3200#32 else if l ≤ p then 0x4500#32 ||| 0x200#32 else 0x4500#32 : BitVec 32).getLsbD i.val)
        = popfWrites m l p false i.val := by intro m; cases m <;> decide +kernel
  have key4 : ∀ (m : Mode) (l p : BitVec 2) (i : Fin 32), (m = .vm86 → p = 3#2) →
      (arithFlag i.val || (if m = .vm86 then if p = 3#2 then 0x4500#32 ||| 0x240200#32 else 0x4500#32
        else (if l = 0#2 then 0x4500#32 ||| 0x3200#32 else if l ≤ p then 0x4500#32 ||| 0x200#32 else 0x4500#32) ||| 0x240000#32 : BitVec 32).getLsbD i.val)
        = popfWrites m l p true i.val := by intro m; cases m <;> decide +kernel
  obtain rfl | rfl := hk
  · exact key m l p ⟨i, hi⟩
  · refine key4 m l p ⟨i, hi⟩ (fun a => ?_)
    by_cases hp : p = 3#2
    · exact hp
    · exact absurd (hs' a hp) (by decide)

/-- The #GP condition under VME. -/
theorem vmeGp_iff (e : BitVec 32) (n : Nat) (hn : n < 65536) (he : e[9] = false ∨ e[20] = false) :
    vmePopfGp e (BitVec.ofNat 32 n) = (n.testBit 8 || (n.testBit 9 && e[20])) := by
  have h20 : (BitVec.ofNat 32 n).getLsbD 20 = false := by
    rw [bit_at n 20 (by omega)]
    exact Nat.testBit_lt_two_pow (by omega)
  have h9 : (BitVec.ofNat 32 n).getLsbD 9 = n.testBit 9 := bit_at n 9 (by omega)
  have h8 : (BitVec.ofNat 32 n).getLsbD 8 = n.testBit 8 := bit_at n 8 (by omega)
  rw [← h9, ← h8]
  clear h9 h8 hn
  revert h20
  generalize BitVec.ofNat 32 n = v
  intro h20
  unfold vmePopfGp
  have a : ((e ||| v) &&& 0x100200#32 == 0x100200#32) = (v.getLsbD 9 && e[20]) := by
    have hx : (e ||| v) &&& 0x100200#32 = 0x100200#32 ↔ (e ||| v).getLsbD 9 = true ∧ (e ||| v).getLsbD 20 = true := by
      constructor
      · intro hh
        have a9 := congrArg (fun x : BitVec 32 => x.getLsbD 9) hh
        have a20 := congrArg (fun x : BitVec 32 => x.getLsbD 20) hh
        simp only [BitVec.getLsbD_and] at a9 a20
        exact ⟨by simpa using a9, by simpa using a20⟩
      · rintro ⟨a, b⟩
        apply BitVec.eq_of_getLsbD_eq
        intro i hi
        rw [BitVec.getLsbD_and]
        have key : ∀ j : Fin 32, (0x100200#32).getLsbD j.val = (decide (j.val = 9) || decide (j.val = 20)) := by decide
        rw [key ⟨i, hi⟩]
        by_cases h9 : i = 9
        · subst h9; rw [a]; rfl
        · by_cases h20 : i = 20
          · subst h20; rw [b]; rfl
          · simp [h9, h20]
    rw [Bool.eq_iff_iff, beq_iff_eq, hx, BitVec.getLsbD_or, BitVec.getLsbD_or, h20]
    have q9 : e.getLsbD 9 = e[9] := BitVec.getLsbD_eq_getElem (by omega)
    have q20 : e.getLsbD 20 = e[20] := BitVec.getLsbD_eq_getElem (by omega)
    rw [q9, q20]
    clear hx
    rcases he with he | he <;> rw [he] <;> cases v.getLsbD 9 <;> simp
  have b : (v &&& 0x100#32 != 0#32) = v.getLsbD 8 := by
    have := and_ne_zero_bit v 0x100#32 8 (by omega) rfl
    rw [BitVec.getLsbD_eq_getElem (by omega)]
    cases hc : v[8] <;> simp_all
  rw [a, b, Bool.or_comm]

theorem vif_bits {r : Regs} (v : BitVec 32) (hw : FlagsWf r) (i : Nat) (hi : i < 32) :
    (flagsWord (vifOf v r)).getLsbD i = if i = 19 then v.getLsbD 9 else (flagsWord r).getLsbD i := by
  have ha : r.arith.getLsbD 19 = false := by
    have := congrArg (fun x : BitVec 32 => x.getLsbD 19) hw.arith
    simpa using this
  show (((r.eflags &&& ~~~0x80000#32) ||| ((v &&& 0x200#32) <<< 10)) ||| r.arith).getLsbD i = _
  unfold flagsWord
  simp only [BitVec.getLsbD_or, BitVec.getLsbD_and, BitVec.getLsbD_not, BitVec.getLsbD_shiftLeft]
  have k1 : (0x80000#32).getLsbD i = decide (i = 19) := one_bit 19 (.inr rfl) i hi
  have k2 : i < 42 → (0x200#32).getLsbD (i - 10) = decide (i - 10 = 9) := fun h => one_bit 9 (.inl rfl) (i - 10) (by omega)
  rw [k1, k2 (by omega)]
  by_cases h : i = 19
  · subst h; rw [ha]; simp
  · simp only [h, if_false]
    by_cases h2 : i < 10
    · simp [h2, hi]
    · have : i - 10 ≠ 9 := by omega
      simp [this, hi]

theorem vif_wf {r : Regs} (v : BitVec 32) (hw : FlagsWf r) : FlagsWf (vifOf v r) := by
  refine ⟨?_, ?_, hw.arith⟩
  · show (((r.eflags &&& ~~~0x80000#32) ||| ((v &&& 0x200#32) <<< 10)))[1] = true
    have := hw.one
    simp [this]
  · show (((r.eflags &&& ~~~0x80000#32) ||| ((v &&& 0x200#32) <<< 10))) &&& 0x8D5#32 = 0#32
    have e : (((r.eflags &&& ~~~0x80000#32) ||| ((v &&& 0x200#32) <<< 10))) &&& 0x8D5#32 = r.eflags &&& 0x8D5#32 := by bits32
    rw [e, hw.sys]

/-- What POPF does to the flags, when it completes: the bits of the table come from the stack and the others stay; VIP and (in vm86
mode with IOPL 3) VIF stay; in vm86 mode with IOPL below 3 VIF gets the popped IF. -/
theorem C86_popf_flags (acc : Acc) (s t : St) (k : Nat) (hk : k = 2 ∨ k = 4) (h : AgreeCore s.c.r) (hz : AgreeFlat s.c.r)
    (hv : NoVmInReal s.c.r) (hw : FlagsWf s.c.r) (hd : step acc (.popf k) s = .done t) :
    (∀ i, i < 32 → i ≠ 16 → i ≠ 19 → (flagsWord t.c.r).getLsbD i =
      if i = 1 then true
      else if popfWrites (mode s.c.r) (level s.c.r) (iopl s.c.r) (k == 4) i then (stackItem s.c k 0).testBit i
      else (flagsWord s.c.r).getLsbD i) ∧
    (flagsWord t.c.r).getLsbD 16 = (flagsWord s.c.r).getLsbD 16 ∧
    (flagsWord t.c.r).getLsbD 19 =
      if mode s.c.r = .vm86 ∧ iopl s.c.r ≠ 3#2 then (stackItem s.c k 0).testBit 9 else (flagsWord s.c.r).getLsbD 19 := by
  have e : step acc (.popf k) s = popf acc k s := rfl
  rw [e] at hd
  unfold popf at hd
  split at hd
  · cases hd
  rename_i hns
  have hs2 : Sensitive s.c.r → k = 2 := by
    intro hs
    rw [(sens hv).2 hs] at hns
    obtain rfl | rfl := hk
    · rfl
    · exact absurd rfl hns
  split at hd
  · cases hd
  rename_i v esp hpop
  obtain ⟨rfl, _⟩ := pop_item h hz hpop
  dsimp only at hd
  split at hd
  · cases hd
  cases hd
  have bits : ∀ (r : Regs), FlagsWf r → ∀ i, i < 32 →
      (flagsWord (writeEflags (BitVec.ofNat 32 (stackItem s.c k 0)) (popfMask s k) r)).getLsbD i =
      if i = 1 then true
      else if popfWrites (mode s.c.r) (level s.c.r) (iopl s.c.r) (k == 4) i then (stackItem s.c k 0).testBit i
      else (flagsWord r).getLsbD i := by
    intro r hr i hi
    rw [← mask_bit h hv hk i hi hs2, ← bit_at _ i hi]
    exact flag_bits hr _ _ i hi
  have n16 : ∀ m l p b, popfWrites m l p b 16 = false := fun _ _ _ _ => rfl
  have n19 : ∀ m l p b, popfWrites m l p b 19 = false := fun _ _ _ _ => rfl
  dsimp only
  unfold popfRegs
  dsimp only
  have hw' : FlagsWf { s.c.r with esp := esp } := ⟨hw.one, hw.sys, hw.arith⟩
  by_cases hs : Sensitive s.c.r
  · rw [if_pos ((sens hv).2 hs), if_pos (show mode s.c.r = .vm86 ∧ iopl s.c.r ≠ 3#2 from hs)]
    have b := bits _ (vif_wf (BitVec.ofNat 32 (stackItem s.c k 0)) hw')
    refine ⟨fun i hi h16 h19 => ?_, ?_, ?_⟩
    · rw [b i hi, vif_bits _ hw' i hi, if_neg h19]; rfl
    · rw [b 16 (by omega), vif_bits _ hw' 16 (by omega), n16]; rfl
    · rw [b 19 (by omega), vif_bits _ hw' 19 (by omega), n19, if_neg (by omega), if_neg (by decide), if_pos rfl]
      exact bit_at _ 9 (by omega)
  · rw [if_neg (fun x => hs ((sens hv).1 x)), if_neg (show ¬ (mode s.c.r = .vm86 ∧ iopl s.c.r ≠ 3#2) from hs)]
    have b := bits _ hw'
    refine ⟨fun i hi _ _ => b i hi, ?_, ?_⟩
    · rw [b 16 (by omega), n16]; rfl
    · rw [b 19 (by omega), n19]; rfl

theorem pop_reads {acc : Acc} {s : St} {k : Nat} (h : AgreeCore s.c.r) (hz : AgreeFlat s.c.r) :
    (acc s.c (stackAddr s.c.r k 0) k false 0 = true → ∃ e, Stack.popVal (okOf acc s) (view s) k = some (stackItem s.c k 0, e)) ∧
    (acc s.c (stackAddr s.c.r k 0) k false 0 = false → Stack.popVal (okOf acc s) (view s) k = none) := by
  unfold Stack.popVal stackItem
  rw [view_ss32 h, esp_off]
  cases hc : stack32 s.c.r with
  | true =>
    simp only [if_true, addr_view hz]
    exact ⟨fun ho => ⟨_, if_pos ho⟩, fun ho => if_neg (by intro x; exact absurd (x.symm.trans ho) (by decide))⟩
  | false =>
    simp only [Bool.false_eq_true, if_false, addr_view hz]
    exact ⟨fun ho => ⟨_, if_pos ho⟩, fun ho => if_neg (by intro x; exact absurd (x.symm.trans ho) (by decide))⟩

/-- When POPF completes, when it raises #GP(0), when it faults.  Missing: in vm86 mode with IOPL below 3 and VME, the case of IF and
VIP both set (`C86_popf_violation`: #GP although the popped IF is clear). -/
theorem C86_popf_partial (acc : Acc) (s : St) (k : Nat) (hk : k = 2 ∨ k = 4) (h : AgreeCore s.c.r) (hz : AgreeFlat s.c.r)
    (hv : NoVmInReal s.c.r) (hi : Sensitive s.c.r → s.c.r.eflags[9] = false ∨ s.c.r.eflags[20] = false) :
    (Sensitive s.c.r ∧ (k = 4 ∨ s.c.r.cr4[0] = false) → step acc (.popf k) s = .stop (.exc 13 0#16) s) ∧
    (¬ (Sensitive s.c.r ∧ (k = 4 ∨ s.c.r.cr4[0] = false)) → acc s.c (stackAddr s.c.r k 0) k false 0 = false →
      step acc (.popf k) s = .stop .fault s) ∧
    (¬ (Sensitive s.c.r ∧ (k = 4 ∨ s.c.r.cr4[0] = false)) → acc s.c (stackAddr s.c.r k 0) k false 0 = true →
      if Sensitive s.c.r ∧ ((stackItem s.c k 0).testBit 8 = true ∨ ((stackItem s.c k 0).testBit 9 = true ∧ s.c.r.eflags[20] = true))
      then step acc (.popf k) s = .stop (.exc 13 0#16) s
      else ∃ t, step acc (.popf k) s = .done t) := by
  have e : step acc (.popf k) s = popf acc k s := rfl
  rw [e]
  unfold popf
  have hc : ((vm s && ioplN s != 3#32 && !(k == 2 && vme s)) = true) ↔ (Sensitive s.c.r ∧ (k = 4 ∨ s.c.r.cr4[0] = false)) := by
    rw [Bool.and_eq_true, sens hv, vme_iff h]
    obtain rfl | rfl := hk <;> cases s.c.r.cr4[0] <;> simp
  refine ⟨fun hs => by rw [if_pos (hc.2 hs)]; rfl, fun hs ho => ?_, fun hs ho => ?_⟩
  · rw [if_neg (fun x => hs (hc.1 x)), (pop_reads h hz).2 ho]
  · rw [if_neg (fun x => hs (hc.1 x))]
    obtain ⟨esp, hp⟩ := (pop_reads h hz).1 ho
    rw [hp]
    dsimp only
    by_cases hS : Sensitive s.c.r
    · have k2 : k = 2 := by
        obtain rfl | rfl := hk
        · rfl
        · exact absurd ⟨hS, .inl rfl⟩ hs
      subst k2
      have hlt : stackItem s.c 2 0 < 65536 := Guest.load_lt _ _ 2
      rw [(sens hv).2 hS, Bool.true_and, vmeGp_iff _ _ hlt (hi hS)]
      by_cases hg : (stackItem s.c 2 0).testBit 8 = true ∨ ((stackItem s.c 2 0).testBit 9 = true ∧ s.c.r.eflags[20] = true)
      · rw [if_pos ⟨hS, hg⟩, if_pos (by simpa using hg)]; rfl
      · rw [if_neg (fun x => hg x.2), if_neg (by simpa using hg)]
        exact ⟨_, rfl⟩
    · rw [if_neg (fun x => hS x.1)]
      have : ¬ ((vm s && ioplN s != 3#32) = true) := fun x => hS ((sens hv).1 x)
      rw [Bool.eq_false_iff.2 this, Bool.false_and]
      exact ⟨_, rfl⟩

/-- PUSHF: #GP(0) in vm86 mode with IOPL below 3, unless 16 bit under VME; else the image is on top of the new stack. -/
theorem C86_pushf (acc : Acc) (s : St) (k : Nat) (hk : k = 2 ∨ k = 4) (h : AgreeCore s.c.r) (hz : AgreeFlat s.c.r)
    (hv : NoVmInReal s.c.r) (hw : FlagsWf s.c.r) :
    (Sensitive s.c.r ∧ (k = 4 ∨ s.c.r.cr4[0] = false) → step acc (.pushf k) s = .stop (.exc 13 0#16) s) ∧
    (∀ t, step acc (.pushf k) s = .done t → ¬ (Sensitive s.c.r ∧ (k = 4 ∨ s.c.r.cr4[0] = false)) ∧
      (∀ i, i < 8 * k → i < 22 → (stackItem t.c k 0).testBit i = pushfBit s.c.r i) ∧ t.c.r.eflags = s.c.r.eflags ∧ t.gpr = s.gpr) := by
  have e : step acc (.pushf k) s = pushf acc k s := rfl
  rw [e]
  unfold pushf
  have hc : ((vm s && decide (ioplN s < 3#32) && !(k == 2 && vme s)) = true) ↔ (Sensitive s.c.r ∧ (k = 4 ∨ s.c.r.cr4[0] = false)) := by
    rw [Bool.and_eq_true, sens' hv, vme_iff h]
    obtain rfl | rfl := hk <;> cases s.c.r.cr4[0] <;> simp
  refine ⟨fun hs => by rw [if_pos (hc.2 hs)]; rfl, fun t hd => ?_⟩
  split at hd
  · cases hd
  rename_i hns
  have hns' := fun x => hns (hc.2 x)
  refine ⟨hns', ?_⟩
  split at hd
  · cases hd
  rename_i u hpush
  cases hd
  refine ⟨?_, rfl, rfl⟩
  obtain ⟨_, hmem, ⟨hb, h32, _⟩, _⟩ := Stack.C66_push _ (view_flat hz) (by omega) hpush
  have ha : stackAddr { s.c.r with esp := u.esp } k 0 = Stack.lin (view s) (Stack.off u) := by
    rw [esp_off]
    show s.c.r.ss.base + (if stack32 s.c.r then u.esp else (u.esp.setWidth 16 : BitVec 16).setWidth 32) =
      BitVec.ofNat 32 (Stack.off u) + s.c.r.ss.base
    rw [BitVec.add_comm]
    congr 1
    unfold Stack.off
    rw [h32, view_ss32 h]
    cases stack32 s.c.r with
    | true => simp
    | false =>
      apply BitVec.eq_of_toNat_eq
      simp
  have hst : stackItem ⟨{ s.c.r with esp := u.esp }, u.mem⟩ k 0 = (pushfVal s k).toNat % 256 ^ k := by
    show Guest.load u.mem (stackAddr { s.c.r with esp := u.esp } k 0) k = _
    rw [ha, hmem]
    exact Guest.load_store _ _ k _ k (Nat.le_refl _) (by omega)
  intro i hik hi
  show (stackItem ⟨{ s.c.r with esp := u.esp }, u.mem⟩ k 0).testBit i = _
  rw [hst, show (256 : Nat) ^ k = 2 ^ (8 * k) by rw [Nat.pow_mul], Nat.testBit_mod_two_pow, decide_eq_true hik, Bool.true_and]
  show (pushfVal s k).getLsbD i = _
  have a1 : ∀ j, j < 32 → arithFlag j = false → s.c.r.arith.getLsbD j = false := by
    intro j hj hf
    have := congrArg (fun x : BitVec 32 => x.getLsbD j) hw.arith
    simp only [BitVec.getLsbD_and, BitVec.getLsbD_not, BitVec.getLsbD_zero] at this
    have k1 : ∀ j : Fin 32, (0x8D5#32).getLsbD j.val = arithFlag j.val := by decide
    rw [k1 ⟨j, hj⟩, hf] at this
    simpa [hj] using this
  unfold pushfVal pushfBit
  dsimp only
  obtain rfl | rfl := hk
  · rw [if_pos rfl, if_neg (show ¬ (i = 16 ∨ i = 17) by omega)]
    by_cases hS : Sensitive s.c.r
    · have hS1 : mode s.c.r = .vm86 := hS.1
      have hS2 : iopl s.c.r ≠ 3#2 := hS.2
      rw [if_pos ((sens' hv).2 hS)]
      by_cases h12 : i = 12 ∨ i = 13
      · rw [if_pos ⟨hS1, hS2, h12⟩]
        obtain rfl | rfl := h12 <;> simp [BitVec.getLsbD_or, BitVec.getLsbD_and]
      · rw [if_neg (fun x => h12 x.2.2)]
        by_cases h9 : i = 9
        · rw [if_pos ⟨hS1, hS2, h9⟩]
          subst h9
          rw [BitVec.getLsbD_or, a1 9 (by omega) (by decide), Bool.or_false]
          simp
        · rw [if_neg (fun x => h9 x.2.2)]
          unfold flagsWord
          rw [BitVec.getLsbD_or, BitVec.getLsbD_or]
          congr 1
          have k1 : ∀ j : Fin 16, j.val ≠ 9 → j.val ≠ 12 → j.val ≠ 13 → (0x3000#32).getLsbD j.val = false ∧ (0x3200#32).getLsbD j.val = false ∧
              (0x80000#32).getLsbD (10 + j.val) = false := by decide
          obtain ⟨q1, q2, q3⟩ := k1 ⟨i, by omega⟩ h9 (fun x => h12 (.inl x)) (fun x => h12 (.inr x))
          rw [BitVec.getLsbD_or, BitVec.getLsbD_ushiftRight, BitVec.getLsbD_and, BitVec.getLsbD_and, BitVec.getLsbD_not, q1, q2, q3]
          simp only [Bool.and_false, Bool.false_or, Bool.not_false, Bool.and_true]
          simp [show i < 32 by omega]
    · rw [if_neg (fun x => hS ((sens' hv).1 x)), if_neg (fun x => hS ⟨x.1, x.2.1⟩), if_neg (fun x => hS ⟨x.1, x.2.1⟩)]
      rfl
  · have hS : ¬ Sensitive s.c.r := fun x => hns' ⟨x, .inl rfl⟩
    rw [if_neg (show ¬ (4 = 2) by omega), if_neg (show ¬ (mode s.c.r = .vm86 ∧ iopl s.c.r ≠ 3#2 ∧ (i = 12 ∨ i = 13)) from fun x => hS ⟨x.1, x.2.1⟩),
      if_neg (show ¬ (mode s.c.r = .vm86 ∧ iopl s.c.r ≠ 3#2 ∧ i = 9) from fun x => hS ⟨x.1, x.2.1⟩), BitVec.getLsbD_and]
    have k1 : ∀ j : Fin 22, (0xFCFFFF#32).getLsbD j.val = !(decide (j.val = 16 ∨ j.val = 17)) := by decide
    rw [k1 ⟨i, hi⟩]
    unfold flagsWord
    by_cases hx : i = 16 ∨ i = 17
    · rw [if_pos hx]; simp [hx]
    · rw [if_neg hx]; simp [hx]
end Verif.Priv
