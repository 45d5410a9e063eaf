import Verif.Lemmas.Mode
import Verif.Lemmas.Bits
/- Control register writes, exception delivery and the mode bits. -/
namespace Verif.Seg
open Spec

/-- A program that may leave the property `P` for `Q`, but only by completing. -/
structure Triple {α : Type} (P Q : Regs → Prop) (m : M α) : Prop where
  ok : ∀ s a s', P s.r → m s = .ok a s' → Q s'.r
  stop : ∀ s e s', P s.r → m s = .stop e s' → P s'.r

theorem Keeps.triple {α : Type} {P Q : Regs → Prop} {m : M α} (h : Keeps P m) (hpq : ∀ r, P r → Q r) :
    Triple P Q m := by
  constructor
  · intro s a s' hs he
    have := h.run s hs; rw [he] at this; exact hpq _ this
  · intro s e s' hs he
    have := h.run s hs; rw [he] at this; exact this

theorem triple_bind {α β : Type} {P Q : Regs → Prop} {m : M α} {f : α → M β}
    (hm : Keeps P m) (hf : ∀ a, Triple P Q (f a)) : Triple P Q (m >>= f) := by
  constructor
  · intro s a s' hs he
    have h := hm.run s hs
    change (match m s with | .ok a s' => f a s' | .stop e s' => .stop e s') = _ at he
    cases hms : m s with
    | ok b s1 => rw [hms] at h he; exact (hf b).ok s1 a s' h he
    | stop e s1 => rw [hms] at he; cases he
  · intro s e s' hs he
    have h := hm.run s hs
    change (match m s with | .ok a s' => f a s' | .stop e s' => .stop e s') = _ at he
    cases hms : m s with
    | ok b s1 => rw [hms] at h he; exact (hf b).stop s1 e s' h he
    | stop e s1 => rw [hms] at h he; cases he; exact h

theorem triple_modR {P Q : Regs → Prop} {f : Regs → Regs} (h : ∀ r, P r → Q (f r)) :
    Triple P Q (modR f) := by
  constructor
  · intro s a s' hs he; cases he; exact h _ hs
  · intro s e s' hs he; cases he

variable {fl : Bool}

/-! IRET to vm86 mode. -/

theorem pb_vm86 (i : SR) (sel : BitVec 16) (r : Regs) (h : PB fl r) : PB fl (writeSegVm86 i sel r) :=
  pb_writeSeg i sel _ _ _ r h

theorem writeSegVm86_eflags (i : SR) (sel : BitVec 16) (r : Regs) :
    (writeSegVm86 i sel r).eflags = r.eflags := writeSeg_eflags ..
theorem writeSegVm86_cr0 (i : SR) (sel : BitVec 16) (r : Regs) :
    (writeSegVm86 i sel r).cr0 = r.cr0 := writeSeg_cr0 ..

theorem triple_iretToVm86 (acc : Acc) (eip : BitVec 32) (cs : BitVec 16) (e sp : BitVec 32)
    (he : e[17] = true) : Triple (Prot fl) (Coherent fl) (iretToVm86 acc eip cs e sp) := by
  unfold iretToVm86
  refine triple_bind (keeps_popV ..) fun p => ?_
  refine triple_bind (keeps_popV ..) fun p2 => ?_
  refine triple_bind (keeps_popV ..) fun p3 => ?_
  refine triple_bind (keeps_popV ..) fun p4 => ?_
  refine triple_bind (keeps_popV ..) fun p5 => ?_
  refine triple_bind (keeps_popV ..) fun p6 => ?_
  refine triple_modR fun r h => ?_
  dsimp only
  have hpb : PB fl (writeEflags e 0x3E7300#32 r) := h.1
  have h1 := pb_vm86 .gs (p6.1.setWidth 16) _ (pb_vm86 .fs (p5.1.setWidth 16) _
    (pb_vm86 .ds (p4.1.setWidth 16) _ (pb_vm86 .es (p3.1.setWidth 16) _
      (pb_vm86 .ss (p2.1.setWidth 16) _ (pb_vm86 .cs cs _ hpb)))))
  have c0 : (writeEflags e 0x3E7300#32 r).cr0[0] = true := h.2.1
  have c1 : (writeEflags e 0x3E7300#32 r).eflags[17] = true := by simp [writeEflags, he]
  generalize hr0 : writeEflags e 0x3E7300#32 r = r0 at *
  have hcs : ∀ x : Regs, (writeSegVm86 .cs cs x).cs.flags = 0xFB00#32 := fun x => rfl
  generalize hr1 : writeSegVm86 .gs (p6.1.setWidth 16) (writeSegVm86 .fs (p5.1.setWidth 16)
    (writeSegVm86 .ds (p4.1.setWidth 16) (writeSegVm86 .es (p3.1.setWidth 16)
      (writeSegVm86 .ss (p2.1.setWidth 16) (writeSegVm86 .cs cs r0))))) = r1 at *
  have d0 : r1.cr0[0] = true := by subst hr1; simpa only [writeSegVm86_cr0] using c0
  have d1 : r1.eflags[17] = true := by subst hr1; simpa only [writeSegVm86_eflags] using c1
  have d2 : r1.cs.flags = 0xFB00#32 := by subst hr1; rfl
  have d3 : r1.ss.flags = 0xF300#32 := by subst hr1; rfl
  refine ⟨(agree_vm86 { r1 with
    esp := p.1, eip := eip, hflags := (r1.hflags &&& ~~~H_CPL) ||| 3#32 } d0 d1).2 ⟨?_, ?_⟩, fun h0 => ?_⟩
  · have := h1.1
    rw [d2, d3] at this
    cases fl <;> simp +contextual [H_CPL, this]
  · have := h1.2
    unfold CB at this ⊢
    cases fl <;> simp +contextual [H_CPL, this]
  · exact absurd (d0.symm.trans h0) (by simp)

theorem triple_iretPe (acc : Acc) (k : Nat) : Triple (Prot fl) (Coherent fl) (iretPe acc k) := by
  have hp : ∀ r, Prot fl r → Coherent fl r := fun r h => h.coherent
  -- the register state read first is the one the property holds of
  have aux : ∀ s, Prot fl s.r → ∀ X : Res Unit, iretPe acc k s = X →
      Ends (Coherent fl) X ∧ (∀ e s', X = .stop e s' → Prot fl s'.r) := by
    intro s hs X hX
    have hvm : ¬ (s.r.eflags &&& 0x20000#32 ≠ 0#32) := by
      have := hs.2.2
      rw [Classical.not_not]
      exact (Bits.and_eq_zero 17 rfl (by decide)).2 (by simpa using this)
    have key : Triple (Prot fl) (Coherent fl) (do
        check (s.r.eflags &&& 0x4000#32 != 0#32) .abort
        let (eip, sp) ← popV acc k s.r.esp
        let (cs, sp) ← popV acc k sp
        let (e, sp) ← popV acc k sp
        if e &&& 0x20000#32 ≠ 0#32 then iretToVm86 acc eip (cs.setWidth 16) e sp
        else retPe acc k eip (cs.setWidth 16) sp (some (e, iretMask k s.r)) : M Unit) := by
      refine triple_bind (keeps_check ..) fun _ => ?_
      refine triple_bind (keeps_popV ..) fun p => ?_
      refine triple_bind (keeps_popV ..) fun p2 => ?_
      refine triple_bind (keeps_popV ..) fun p3 => ?_
      show Triple (Prot fl) (Coherent fl) (if p3.1 &&& 0x20000#32 ≠ 0#32 then _ else _)
      by_cases hv : p3.1 &&& 0x20000#32 = 0#32
      · rw [if_neg (by simpa using hv)]
        refine (keeps_retPe acc k _ _ _ _ ?_).triple hp
        intro v m hvm'
        have := (Bits.and_eq_zero (x := p3.1) 17 rfl (by decide)).1 hv
        injection hvm' with h1
        injection h1 with h1 h2
        subst h1
        simpa using this
      · rw [if_pos (by simpa using hv)]
        refine triple_iretToVm86 acc _ _ _ _ ?_
        have : ¬ p3.1.getLsbD 17 = false := fun h => hv ((Bits.and_eq_zero 17 rfl (by decide)).2 h)
        simpa using this
    have hX' : (do
        check (s.r.eflags &&& 0x4000#32 != 0#32) .abort
        let (eip, sp) ← popV acc k s.r.esp
        let (cs, sp) ← popV acc k sp
        let (e, sp) ← popV acc k sp
        if e &&& 0x20000#32 ≠ 0#32 then iretToVm86 acc eip (cs.setWidth 16) e sp
        else retPe acc k eip (cs.setWidth 16) sp (some (e, iretMask k s.r)) : M Unit) s = X := by
      rw [← hX]
      show _ = (if s.r.eflags &&& 0x20000#32 ≠ 0#32 then _ else _ : M Unit) s
      rw [if_neg hvm]
    cases hXX : X with
    | ok a s' =>
      rw [hXX] at hX'
      exact ⟨key.ok s a s' hs hX', by intro e s'' h; cases h⟩
    | stop e s' =>
      rw [hXX] at hX'
      have := key.stop s e s' hs hX'
      exact ⟨this.coherent, by intro e2 s2 h; cases h; exact this⟩
  constructor
  · intro s a s' hs he
    exact (aux s hs _ he).1
  · intro s e s' hs he
    exact (aux s hs _ he).2 e s' rfl

/-! Control registers. -/

theorem coherent_cases (r : Regs) : Coherent fl r ↔
    ((r.cr0[0] = false ∧ r.eflags[17] = false ∧
        (r.hflags[0] = false ∧ r.hflags[1] = false ∧ r.hflags[2] = false ∧ r.hflags[3] = false) ∧ CB fl r) ∨
     (r.cr0[0] = true ∧ r.eflags[17] = true ∧
        (r.hflags[0] = true ∧ r.hflags[1] = true ∧ r.hflags[2] = false ∧ r.hflags[3] = false) ∧ CB fl r) ∨
     (r.cr0[0] = true ∧ r.eflags[17] = false ∧ PB fl r)) := by
  unfold Coherent NoVmInReal
  rcases mode_cases r with ⟨hm, h0⟩ | ⟨hm, h0, h1⟩ | ⟨hm, h0, h1⟩
  · rw [agree_real r h0]; simp [h0]; constructor <;> (rintro ⟨h, h'⟩; exact ⟨by assumption, by assumption⟩)
  · rw [agree_vm86 r h0 h1]; simp [h0, h1]
  · rw [agree_prot r h0 h1]; simp [h0, h1]

theorem cpl_zero_bits {h : BitVec 32} (hc : h &&& H_CPL = 0#32) : h[0] = false ∧ h[1] = false := by
  have h0 := congrArg (fun v : BitVec 32 => v[0]) hc
  have h1 := congrArg (fun v : BitVec 32 => v[1]) hc
  simp [H_CPL] at h0 h1
  exact ⟨h0, h1⟩

theorem and_ne_zero_bit (x k : BitVec 32) (i : Nat) (hi : i < 32) (hk : k = BitVec.twoPow 32 i) :
    (x &&& k ≠ 0#32) ↔ x[i] = true := by
  have := Bits.and_eq_zero (x := x) i hk hi
  rw [BitVec.getLsbD_eq_getElem hi] at this
  rw [Ne, this]; simp

theorem and_ne_and_bit (x y k : BitVec 32) (i : Nat) (hi : i < 32) (hk : k = BitVec.twoPow 32 i) :
    (x &&& k ≠ y &&& k) ↔ x[i] ≠ y[i] := by
  subst hk
  rw [BitVec.and_twoPow, BitVec.and_twoPow, BitVec.getLsbD_eq_getElem hi, BitVec.getLsbD_eq_getElem hi]
  cases x[i] <;> cases y[i] <;> simp
  · intro h
    have := congrArg (fun v : BitVec 32 => v[i]) h
    simp at this
  · intro h
    have := congrArg (fun v : BitVec 32 => v[i]) h
    simp at this

theorem switchPe_bits (old new : BitVec 32) (cs ss : SegReg) (h : BitVec 32) :
    (switchPe old new cs ss h)[0] = (if old[0] = new[0] then h[0] else if new[0] then h[0] || cs.sel[0] else false) ∧
    (switchPe old new cs ss h)[1] = (if old[0] = new[0] then h[1] else if new[0] then h[1] || cs.sel[1] else false) ∧
    (switchPe old new cs ss h)[2] = (if old[0] = new[0] then h[2] else if new[0] then h[2] || cs.flags[22] else false) ∧
    (switchPe old new cs ss h)[3] = (if old[0] = new[0] then h[3] else if new[0] then h[3] || ss.flags[22] else false) ∧
    (switchPe old new cs ss h)[4] = (if old[0] = new[0] then h[4] else new[0]) ∧
    (∀ i, (hi : i < 32) → 5 ≤ i → (switchPe old new cs ss h)[i] = h[i]) := by
  unfold switchPe
  simp only [and_ne_and_bit old new 1#32 0 (by omega) rfl, and_ne_zero_bit new 1#32 0 (by omega) rfl,
    and_ne_zero_bit cs.flags HID_DB 22 (by omega) rfl, and_ne_zero_bit ss.flags HID_DB 22 (by omega) rfl]
  have big : ∀ i, (hi : i < 32) → 5 ≤ i → (H_CS32[i] = false ∧ H_SS32[i] = false ∧ H_PE[i] = false ∧ H_CPL[i] = false) := by
    intro i hi h5
    simp only [H_CS32, H_SS32, H_PE, H_CPL]
    have e : ∀ k : Nat, k < 32 → (BitVec.ofNat 32 k)[i] = false := by
      intro k hk
      rw [← BitVec.getLsbD_eq_getElem hi, BitVec.getLsbD_ofNat, decide_eq_true hi, Bool.true_and]
      exact Nat.testBit_lt_two_pow (Nat.lt_of_lt_of_le hk (Nat.pow_le_pow_right (by omega) h5 : 2 ^ 5 ≤ 2 ^ i))
    exact ⟨e 4 (by omega), e 8 (by omega), e 16 (by omega), e 3 (by omega)⟩
  have two : ∀ b : Bool, b = true ∨ b = false := by decide
  rcases two old[0] with h1 | h1 <;> rcases two new[0] with h2 | h2 <;> simp only [h1, h2]
  · simp
  · refine ⟨by simp [H_CPL], by simp [H_CPL], by simp [H_CS32], by simp [H_SS32], by simp [H_PE], ?_⟩
    intro i hi h5
    have := big i hi h5
    simp [this]
  · rcases two cs.flags[22] with h3 | h3 <;> rcases two ss.flags[22] with h4 | h4 <;>
      simp only [h3, h4] <;>
      refine ⟨by simp [H_CPL, H_CS32, H_SS32, H_PE], by simp [H_CPL, H_CS32, H_SS32, H_PE],
        by simp [H_CPL, H_CS32, H_SS32, H_PE], by simp [H_CPL, H_CS32, H_SS32, H_PE],
        by simp [H_CPL, H_CS32, H_SS32, H_PE], ?_⟩ <;>
      (intro i hi h5; have := big i hi h5; simp [this])
  · simp

theorem coherent_updateCr0_mov (r r' : Regs) (n : BitVec 32) (f : Flush) (h : Coherent fl r)
    (hc : r.hflags &&& H_CPL = 0#32) (hu : updateCr0 .mov r n = .ok r' f) : Coherent fl r' := by
  have hc' := cpl_zero_bits hc
  unfold updateCr0 at hu
  simp only at hu
  split at hu
  · cases hu
  · injection hu with hu _
    subst hu
    rw [coherent_cases] at h
    rw [coherent_cases]
    generalize hH : (((n &&& 8#32) <<< 7) ||| ((((n &&& 0x20#32) <<< 2) ||| ((((n &&& 2#32) <<< 14) |||
        ((((n &&& 4#32) <<< 3) ||| (r.hflags &&& ~~~0x20#32)) &&& ~~~0x8000#32)) &&& ~~~0x80#32)) &&& ~~~0x400#32)) = H
    obtain ⟨s0, s1, s2, s3, s4, s5⟩ := switchPe_bits r.cr0 n r.cs r.ss H
    have t : H[0] = r.hflags[0] ∧ H[1] = r.hflags[1] ∧ H[2] = r.hflags[2] ∧ H[3] = r.hflags[3] ∧
        H[4] = r.hflags[4] ∧ H[5] = n[2] ∧ H[7] = n[5] ∧ H[9] = r.hflags[9] ∧ H[10] = n[3] ∧
        H[11] = r.hflags[11] ∧ H[15] = n[1] ∧ H[19] = r.hflags[19] ∧ H[20] = r.hflags[20] ∧
        H[21] = r.hflags[21] ∧ H[22] = r.hflags[22] ∧ H[23] = r.hflags[23] ∧ H[24] = r.hflags[24] ∧
        H[25] = r.hflags[25] ∧ H[26] = r.hflags[26] := by
      subst hH; simp
    clear hH
    rcases h with ⟨h0, h1, hb, hcb⟩ | ⟨h0, h1, hb, hcb⟩ | ⟨h0, h1, hpb⟩
    · cases hn : n[0]
      · refine .inl ⟨?_, h1, ?_, ?_⟩
        · simp [hn]
        · simp [s0, s1, s2, s3, h0, hn, hb, t]
        · unfold CB at hcb ⊢
          cases fl <;> simp +contextual [s4, s5, h0, hn, hcb, t]
      · refine .inr (.inr ⟨?_, h1, ?_⟩)
        · simp [hn]
        · unfold PB CB
          unfold CB at hcb
          cases fl <;> simp +contextual [s0, s1, s2, s3, s4, s5, h0, hn, hb, hcb, t]
    · rw [hc'.1] at hb; simp at hb
    · cases hn : n[0]
      · refine .inl ⟨?_, h1, ?_, ?_⟩
        · simp [hn]
        · simp [s0, s1, s2, s3, h0, hn, t]
        · unfold PB CB at hpb
          unfold CB
          cases fl <;> simp +contextual [s4, s5, h0, hn, hpb, t]
      · refine .inr (.inr ⟨?_, h1, ?_⟩)
        · simp [hn]
        · unfold PB CB at hpb ⊢
          cases fl <;> simp +contextual [s0, s1, s2, s3, s4, s5, h0, hn, hpb, t]

theorem coherent_updateCr0_lmsw (r r' : Regs) (n : BitVec 32) (f : Flush) (h : Coherent fl r)
    (hc : r.hflags &&& H_CPL = 0#32) (hu : updateCr0 .lmsw r n = .ok r' f) : Coherent fl r' := by
  have hc' := cpl_zero_bits hc
  unfold updateCr0 at hu
  simp only at hu
  injection hu with hu _
  subst hu
  rw [coherent_cases] at h
  rw [coherent_cases]
  generalize hH : (((n &&& 8#32) <<< 7) ||| ((((n &&& 2#32) <<< 14) |||
        ((((n &&& 4#32) <<< 3) ||| (r.hflags &&& ~~~0x20#32)) &&& ~~~0x8000#32)) &&& ~~~0x400#32)) = H
  obtain ⟨s0, s1, s2, s3, s4, s5⟩ := switchPe_bits r.cr0 n r.cs r.ss H
  have t : H[0] = r.hflags[0] ∧ H[1] = r.hflags[1] ∧ H[2] = r.hflags[2] ∧ H[3] = r.hflags[3] ∧
        H[4] = r.hflags[4] ∧ H[5] = n[2] ∧ H[7] = r.hflags[7] ∧ H[9] = r.hflags[9] ∧ H[10] = n[3] ∧
        H[11] = r.hflags[11] ∧ H[15] = n[1] ∧ H[19] = r.hflags[19] ∧ H[20] = r.hflags[20] ∧
        H[21] = r.hflags[21] ∧ H[22] = r.hflags[22] ∧ H[23] = r.hflags[23] ∧ H[24] = r.hflags[24] ∧
        H[25] = r.hflags[25] ∧ H[26] = r.hflags[26] := by
    subst hH; simp
  clear hH
  rcases h with ⟨h0, h1, hb, hcb⟩ | ⟨h0, h1, hb, hcb⟩ | ⟨h0, h1, hpb⟩
  · cases hn : n[0]
    · refine .inl ⟨?_, h1, ?_, ?_⟩
      · simp [hn]
      · simp [s0, s1, s2, s3, h0, hn, hb, t]
      · unfold CB at hcb ⊢
        cases fl <;> simp +contextual [s4, s5, h0, hn, hcb, t]
    · refine .inr (.inr ⟨?_, h1, ?_⟩)
      · simp [hn]
      · unfold PB CB
        unfold CB at hcb
        cases fl <;> simp +contextual [s0, s1, s2, s3, s4, s5, h0, hn, hb, hcb, t]
  · rw [hc'.1] at hb; simp at hb
  · cases hn : n[0]
    · refine .inl ⟨?_, h1, ?_, ?_⟩
      · simp [hn]
      · simp [s0, s1, s2, s3, h0, hn]
      · unfold PB CB at hpb
        unfold CB
        cases fl <;> simp +contextual [s4, s5, h0, hn, hpb, t]
    · refine .inr (.inr ⟨?_, h1, ?_⟩)
      · simp [hn]
      · unfold PB CB at hpb ⊢
        cases fl <;> simp +contextual [s0, s1, s2, s3, s4, s5, h0, hn, hpb, t]

theorem coherent_updateCr0_clts (r r' : Regs) (f : Flush) (h : Coherent fl r)
    (hu : updateCr0 .clts r 0#32 = .ok r' f) : Coherent fl r' := by
  unfold updateCr0 at hu
  injection hu with hu _
  subst hu
  rw [coherent_cases] at h
  rw [coherent_cases]
  rcases h with ⟨h0, h1, hb, hcb⟩ | ⟨h0, h1, hb, hcb⟩ | ⟨h0, h1, hpb⟩
  · refine .inl ⟨by simp [h0], h1, by simp [hb], ?_⟩
    unfold CB at hcb ⊢; cases fl <;> simp +contextual [hcb]
  · refine .inr (.inl ⟨by simp [h0], h1, by simp [hb], ?_⟩)
    unfold CB at hcb ⊢; cases fl <;> simp +contextual [hcb]
  · refine .inr (.inr ⟨by simp [h0], h1, ?_⟩)
    unfold PB CB at hpb ⊢; cases fl <;> simp +contextual [hpb]

theorem coherent_updateCr3 (r r' : Regs) (n : BitVec 32) (f : Flush) (h : Coherent fl r)
    (hu : updateCr3 r n = .ok r' f) : Coherent fl r' := by
  unfold updateCr3 at hu
  injection hu with hu _
  subst hu
  rw [coherent_cases] at h ⊢
  exact h

theorem coherent_updateCr4 (r r' : Regs) (n : BitVec 32) (f : Flush) (h : Coherent fl r)
    (hu : updateCr4 r n = .ok r' f) : Coherent fl r' := by
  unfold updateCr4 at hu
  split at hu
  · cases hu
  · split at hu
    · cases hu
    · injection hu with hu _
      subst hu
      rw [coherent_cases] at h
      rw [coherent_cases]
      rcases h with ⟨h0, h1, hb, hcb⟩ | ⟨h0, h1, hb, hcb⟩ | ⟨h0, h1, hpb⟩
      · refine .inl ⟨h0, h1, by simp [hb], ?_⟩
        unfold CB at hcb ⊢; cases fl <;> simp +contextual [hcb]
      · refine .inr (.inl ⟨h0, h1, by simp [hb], ?_⟩)
        unfold CB at hcb ⊢; cases fl <;> simp +contextual [hcb]
      · refine .inr (.inr ⟨h0, h1, ?_⟩)
        unfold PB CB at hpb ⊢; cases fl <;> simp +contextual [hpb]

/-! cpu_sync_state. -/

theorem orIf_bit (c : Prop) [Decidable c] (m h : BitVec 32) (i : Nat) (hi : i < 32) :
    (orIf c m h)[i] = (h[i] || (decide c && m[i])) := by
  unfold orIf; split <;> simp [*]

theorem pb_sync (r : Regs) : PB fl (syncState r) := by
  unfold PB CB syncState syncHflags
  simp only [and_ne_zero_bit _ HID_DB 22 (by omega) rfl, and_ne_zero_bit _ 1#32 0 (by omega) rfl,
    and_ne_zero_bit _ 2#32 1 (by omega) rfl, and_ne_zero_bit _ 4#32 2 (by omega) rfl,
    and_ne_zero_bit _ 8#32 3 (by omega) rfl, and_ne_zero_bit _ 0x20#32 5 (by omega) rfl,
    and_ne_zero_bit _ 0x200#32 9 (by omega) rfl, and_ne_zero_bit _ 0x400#32 10 (by omega) rfl, orIf_bit,
    H_CPL, H_CS32, H_SS32, H_PE, zeroMask]
  simp

/-! Exception delivery in protected mode. -/

theorem level_small (cd : BitVec 64) (r : Regs) :
    ∃ d : BitVec 2, (if dConf cd then cpl r else dDpl cd) = d.setWidth 64 := by
  split
  · refine ⟨r.hflags.setWidth 2, ?_⟩
    unfold cpl H_CPL
    apply BitVec.eq_of_getLsbD_eq; intro i hi
    by_cases h0 : i = 0
    · subst h0; simp
    · by_cases h1 : i = 1
      · subst h1; simp
      · have : (3 : Nat).testBit i = false :=
          Nat.testBit_lt_two_pow (Nat.lt_of_lt_of_le (by decide : 3 < 2 ^ 2) (Nat.pow_le_pow_right (by omega) (by omega)))
        simp [BitVec.getLsbD_setWidth, BitVec.getLsbD_ofNat, this, show ¬ i < 2 by omega]
  · refine ⟨(cd >>> 45).setWidth 2, ?_⟩
    unfold dDpl
    apply BitVec.eq_of_getLsbD_eq; intro i hi
    by_cases h0 : i = 0
    · subst h0; simp
    · by_cases h1 : i = 1
      · subst h1; simp
      · have : (0x600000000000 : Nat).testBit (45 + i) = false :=
          Nat.testBit_lt_two_pow (Nat.lt_of_lt_of_le (by decide : 0x600000000000 < 2 ^ 47)
            (Nat.pow_le_pow_right (by omega) (by omega)))
        simp [BitVec.getLsbD_setWidth, BitVec.getLsbD_ofNat, this, show ¬ i < 2 by omega]

theorem prot_finish (idx : Nat) (cr2 mask ef neip sp : BitVec 32) (sel : BitVec 16) (cd : BitVec 64)
    (d : BitVec 2) (r : Regs) (h : Prot fl r) :
    Prot fl (finish idx cr2 mask ef neip sp sel cd (d.setWidth 64) r) := by
  obtain ⟨hpb, h0, h1⟩ := h
  refine ⟨?_, h0, ?_⟩
  · unfold PB CB at hpb ⊢
    simp only [finish]
    cases fl <;> simp at hpb <;>
      simp [isZero_bit, zeroMask, H_CPL, H_CS32, H_SS32, HID_DB] <;>
      simp +contextual [hpb] <;>
      try (and_intros <;> rfl)
  · simp [finish]

theorem prot_switchSs (nss : BitVec 16) (sd dpl : BitVec 64) (r : Regs) (h : Prot fl r) :
    Prot fl (switchSs nss sd dpl r) := by
  obtain ⟨hpb, h0, h1⟩ := h
  refine ⟨?_, h0, h1⟩
  unfold PB CB at hpb ⊢
  simp only [switchSs]
  cases fl <;> simp at hpb <;>
    simp [isZero_bit, zeroMask, H_CPL, H_CS32, H_SS32, HID_DB] <;>
    simp +contextual [hpb] <;>
    try (and_intros <;> rfl)

end Verif.Seg
