import Verif.Spec.EmitFlag
import Verif.Lemmas.EmitPopf
import Verif.Props.Bcd
import Verif.Props.Div
import Verif.Props.BitTest
/-
C102: the code emitted for LAHF, SAHF, the bit tests, PUSHF, POPF, DIV, IDIV and the decimal adjustments does what the manual says.
-/
namespace Verif.Emit
open Host Spec Guest

/-! ### LAHF and SAHF -/

/-- C102, LAHF: AH gets SF, ZF, AF, PF and CF at their places, bit 1 set and bits 3 and 5 clear; nothing else changes. -/
theorem C102_lahf {e : Env} {h : Host.St} (hc : h.r .rcx = e.ctx) (hf : Flags.Clean h.g.fl) :
    ∃ h', run e 0 lahf h = .next 0 h' ∧ h'.r .rcx = e.ctx ∧
      h'.g = wrG h.g .b highAcc (((Flags.readEflags h.g.fl).setWidth 8 &&& 0xD5#8) ||| 2#8) := by
  obtain ⟨h', r, c, g⟩ := lahf_run hc
  refine ⟨h', r, c, ?_⟩
  rw [g, Flags.C57_lahf _ hf]
  rfl

/-- C102, SAHF: SF, ZF, AF, PF and CF from AH; OF, the other flags, the registers and memory stay. -/
theorem C102_sahf {e : Env} {h : Host.St} (hc : h.r .rcx = e.ctx) (hf : Flags.Clean h.g.fl) :
    ∃ h', run e 0 sahf h = .next 0 h' ∧ h'.r .rcx = e.ctx ∧ SameButFlags h.g h'.g ∧
      Flags.flags h'.g.fl = sahfFlags (rdG h.g .b highAcc) (Flags.flags h.g.fl).of := by
  obtain ⟨h', r, c, g⟩ := sahf_run hc
  obtain ⟨p1, p2⟩ := Flags.C57_sahf h.g.fl hf (rdG h.g .b ah)
  refine ⟨h', r, c, ⟨by rw [g], by rw [g], by rw [g]; exact p2⟩, ?_⟩
  rw [g]
  exact p1

/-! ### Bit tests -/

theorem btVal_bit {n : Nat} (k : Fin 4) (x : BitVec n) (i : Nat) (hi : i < n) (j : Nat) (hj : j < n) :
    (btVal k x i).getLsbD j = if j = i then BitTest.Spec.newBit (bitOp k) (x.getLsbD j) else x.getLsbD j := by
  have hb : (BitVec.twoPow n i).getLsbD j = decide (j = i) := by
    rw [BitVec.getLsbD_twoPow]
    by_cases hji : j = i
    · subst hji; simp [hi]
    · simp [hji, show ¬ i = j from fun h => hji h.symm]
  match k with
  | 0 =>
    show x.getLsbD j = if j = i then x.getLsbD j else x.getLsbD j
    split <;> rfl
  | 1 =>
    show (x ^^^ BitVec.twoPow n i).getLsbD j = _
    rw [BitVec.getLsbD_xor, hb]
    by_cases hji : j = i <;> simp [hji, bitOp, BitTest.Spec.newBit]
  | 2 =>
    show (x &&& ~~~ BitVec.twoPow n i).getLsbD j = _
    rw [BitVec.getLsbD_and, BitVec.getLsbD_not, hb]
    by_cases hji : j = i <;> simp [hji, bitOp, BitTest.Spec.newBit, hi]
    intro hx; exact hj
  | 3 =>
    show (x ||| BitVec.twoPow n i).getLsbD j = _
    rw [BitVec.getLsbD_or, hb]
    by_cases hji : j = i <;> simp [hji, bitOp, BitTest.Spec.newBit]

/-- C102, BT, BTC, BTR and BTS of 16 or 32 bit operands, where the bit number is inside the operand, or an immediate, or the operand is a
register: CF is the bit selected by the number modulo the operand size, which is then kept, complemented, cleared or set; nothing else
of the operand changes, ZF and the system flags stay, and a fault leaves everything as it was. -/
theorem C102_bit_partial {e : Env} {h : Host.St} (hc : h.r .rcx = e.ctx) (hf : Flags.Clean h.g.fl) (k : Fin 4) {z : Sz} (hz : z = .w ∨ z = .d)
    (n : BitSrc) (rm : Rm) (hn : (∃ r, rm = .reg r) ∨ (∃ v, n = .imm v) ∨ bitGiven h.g z n < z.bits) :
    let i := bitGiven h.g z n % z.bits
    let x := (ofRm rm).get h.g z
    ((ofRm rm).ok e z false = true ∧ (k = 0 ∨ (ofRm rm).ok e z true = true) →
      ∃ (h' : Host.St) (y : BitVec z.bits), run e 0 (bit k z n rm) h = .next 0 h' ∧ h'.r .rcx = e.ctx ∧
        (∀ j, j < z.bits → y.getLsbD j = if j = i then BitTest.Spec.newBit (bitOp k) (x.getLsbD j) else x.getLsbD j) ∧
        (Flags.flags h'.g.fl).cf = x.getLsbD i ∧ (Flags.flags h'.g.fl).zf = (Flags.flags h.g.fl).zf ∧ h'.g.fl.eflags = h.g.fl.eflags ∧
        { h'.g with fl := h.g.fl } = if k = 0 then h.g else (ofRm rm).set h.g z y) ∧
    (¬ ((ofRm rm).ok e z false = true ∧ (k = 0 ∨ (ofRm rm).ok e z true = true)) → run e 0 (bit k z n rm) h = .fault h.g) := by
  intro i x
  have hb : z.bits = 16 ∨ z.bits = 32 := by rcases hz with rfl | rfl <;> decide
  have hpos : 0 < z.bits := by omega
  have hi : i < z.bits := Nat.mod_lt _ hpos
  have h8 : ∀ v : BitVec 64, (v.setWidth z.bits).toNat % z.bits = (v.setWidth 8 : BitVec 8).toNat % z.bits ∧ v.toNat % z.bits = (v.setWidth 8 : BitVec 8).toNat % z.bits := by
    intro v
    rw [BitVec.toNat_setWidth, BitVec.toNat_setWidth]
    rcases hb with hb | hb <;> rw [hb] <;> omega
  cases rm with
  | reg r =>
    obtain ⟨h', r1, c1, g1⟩ := bit_reg_run hc k n r
    have hidx : (bitNum h.g z n).toNat % z.bits = i := by
      cases n with
      | reg q => rfl
      | imm v => exact (h8 v).1
    rw [hidx] at g1
    refine ⟨fun _ => ⟨h', btVal k (rdG h.g z r) i, r1, c1, fun j hj => btVal_bit k _ i hi j hj, ?_⟩, fun hh => absurd ⟨rfl, .inr rfl⟩ hh⟩
    obtain ⟨f1, f2, f3⟩ := BitTest.setCf_cf hf (x.getLsbD i)
    have gf : h'.g.fl = BitTest.setCf h.g.fl (x.getLsbD i) := by rw [g1]; rfl
    rw [gf]
    refine ⟨f1, f2, f3, ?_⟩
    rw [g1]
    by_cases h0 : k = 0
    · rw [if_pos h0, if_pos h0]
    · rw [if_neg h0, if_neg h0]
      rfl
  | mem a =>
    obtain ⟨p1, p2, p3, p4⟩ := bit_mem_run hc k (z := z) n a
    have hidx : bitNumM h.g z n < z.bits ∧ bitNumM h.g z n = i := by
      cases n with
      | reg q =>
        have : bitGiven h.g z (.reg q) < z.bits := by
          rcases hn with ⟨r, hr⟩ | ⟨v, hv⟩ | hn
          · cases hr
          · cases hv
          · exact hn
        exact ⟨this, (Nat.mod_eq_of_lt this).symm⟩
      | imm v => exact ⟨Nat.mod_lt _ hpos, (h8 v).2⟩
    rw [hidx.2] at p3 p4
    refine ⟨fun hk => ?_, fun hk => ?_⟩
    · obtain ⟨h', r1, c1, g1⟩ := p4 hk.1 hi hk.2
      refine ⟨h', btVal k x i, r1, c1, fun j hj => btVal_bit k _ i hi j hj, ?_⟩
      obtain ⟨f1, f2, f3⟩ := BitTest.setCf_cf hf (x.getLsbD i)
      have gf : h'.g.fl = BitTest.setCf h.g.fl (x.getLsbD i) := by rw [g1]; rfl
      rw [gf]
      refine ⟨f1, f2, f3, ?_⟩
      rw [g1]
      by_cases h0 : k = 0
      · rw [if_pos h0]
        simp only [if_pos h0]
      · rw [if_neg h0]
        simp only [if_neg h0]
        rfl
    · rcases (Bool.eq_false_or_eq_true (e.ok a.lin z.bytes false)).symm with hr | hr
      · exact p1 hr
      · have h0 : k ≠ 0 := fun h0 => hk ⟨hr, .inl h0⟩
        rcases (Bool.eq_false_or_eq_true (e.ok a.lin z.bytes true)).symm with hw | hw
        · exact p3 hr hi h0 hw
        · exact absurd ⟨hr, .inr hw⟩ hk

/-- C102, violation: BTS word [0x2000], BX with BX = 16: the manual sets bit 0 of the word at 0x2002, the emitted code makes the host's BTS
access the host's stack outside the copy of the operand. -/
theorem C102_bit_violation : ∃ (e : Env) (h : Host.St), h.r .rcx = e.ctx ∧ Flags.Clean h.g.fl ∧ e.ok 0x2000#32 2 false = true ∧ e.ok 0x2002#32 2 true = true ∧
    bitGiven h.g .w (.reg ⟨3, false⟩) = 16 ∧ run e 0 (bit 3 .w (.reg ⟨3, false⟩) (.mem (exEa 0x2000#32))) h = .stuck := by
  refine ⟨exEnv, { exSt with g := { exSt.g with gpr := fun _ => 16#32 } }, rfl, by unfold Flags.Clean; decide, rfl, rfl, rfl, ?_⟩
  refine (bit_mem_run (e := exEnv) (h := { exSt with g := { exSt.g with gpr := fun _ => 16#32 } }) rfl 3 (z := .w) (.reg ⟨3, false⟩) (exEa 0x2000#32)).2.1 rfl ?_
  decide


/-! ### PUSHF and POPF -/

theorem pushf_image (z : Sz) (hz : z = .w ∨ z = .d) (vme : Bool) (hv : vme = true → z = .w) (f : Flags.St) (i : Nat) (hi : i < z.bits) :
    ((if z = .w then (if vme then vmeImage f.eflags else f.eflags) ||| Flags.pushfArith f
      else (f.eflags ||| Flags.pushfArith f) &&& 0xFCFFFF#32).setWidth z.bits : BitVec z.bits).getLsbD i = pushfBit z vme (Flags.readEflags f) i := by
  rw [Flags.pushfArith_eq, BitVec.getLsbD_setWidth]
  have hb : z.bits ≤ 32 := by rcases hz with rfl | rfl <;> decide
  have hi32 : i < 32 := by omega
  simp only [hi, decide_true, Bool.true_and]
  have ha : ∀ j, (j = 9 ∨ j = 12 ∨ j = 13 ∨ j = 19) → (Flags.arithFlags f).getLsbD j = false := by
    intro j hj
    rw [Flags.arith_bits]
    rcases hj with rfl | rfl | rfl | rfl <;> simp
  unfold pushfBit Flags.readEflags
  rcases hz with rfl | rfl
  · cases vme
    · simp only [if_true, Bool.false_eq_true, if_false]
    · simp only [if_true]
      have hi' : i < 16 := hi
      have a9 := ha 9 (by omega)
      have a12 := ha 12 (by omega)
      have a13 := ha 13 (by omega)
      have a19 := ha 19 (by omega)
      generalize Flags.arithFlags f = a at *
      generalize f.eflags = w
      unfold vmeImage
      rcases (by omega : i = 0 ∨ i = 1 ∨ i = 2 ∨ i = 3 ∨ i = 4 ∨ i = 5 ∨ i = 6 ∨ i = 7 ∨ i = 8 ∨ i = 9 ∨ i = 10 ∨ i = 11 ∨ i = 12 ∨ i = 13 ∨ i = 14 ∨ i = 15) with
        h | h | h | h | h | h | h | h | h | h | h | h | h | h | h | h <;> subst h <;>
        simp only [BitVec.getLsbD_or, BitVec.getLsbD_and, BitVec.getLsbD_ushiftRight, a9, a12, a13, a19] <;> simp
  · cases vme
    · have hm : (0xFCFFFF#32).getLsbD i = decide (i < 24 ∧ i ≠ 16 ∧ i ≠ 17) := by
        have : ∀ k : Fin 32, (0xFCFFFF#32).getLsbD k.val = decide (k.val < 24 ∧ k.val ≠ 16 ∧ k.val ≠ 17) := by decide
        exact this ⟨i, hi32⟩
      rw [if_neg (by decide), if_neg (by decide), if_neg (by decide), BitVec.getLsbD_and, hm]
    · exact absurd (hv rfl) (by decide)

/-- C102, PUSHF: the flags word, its bits as `pushfBit` says, is pushed; a fault of the push leaves everything as it was. -/
theorem C102_pushf {e : Env} {h : Host.St} (hc : h.r .rcx = e.ctx) {s : Ss} (hf : FlatOk e s) {z : Sz} (hz : z = .w ∨ z = .d) (vme : Bool) (hv : vme = true → z = .w) :
    (e.ok (slot e (down s h.g z.bytes)) z.bytes true = true → ∃ (h' : Host.St) (v : BitVec z.bits), run e 0 (pushf s z vme) h = .next 0 h' ∧ h'.r .rcx = e.ctx ∧
      (∀ i, i < z.bits → v.getLsbD i = pushfBit z vme (Flags.readEflags h.g.fl) i) ∧
      SpAt s h.g h'.g (down s h.g z.bytes) (store h.g.mem (slot e (down s h.g z.bytes)) z.bytes v.toNat)) ∧
    (e.ok (slot e (down s h.g z.bytes)) z.bytes true = false → run e 0 (pushf s z vme) h = .fault h.g) := by
  obtain ⟨h1, r1, c1, g1, a1⟩ := pushfFlags_run hc
  obtain ⟨h2, r2, c2, g2, v2⟩ := pushfRest_run c1 z hz vme hv _ a1
  rw [g1] at g2 v2
  obtain ⟨s1, s2⟩ := push_spec c2 hf hz none
  rw [g2] at s1 s2
  refine ⟨fun hk => ?_, fun hk => ?_⟩
  · obtain ⟨h3, r3, c3, -, p3⟩ := s1 hk
    refine ⟨h3, pushVal h2 z none, (run_append _ r1).trans ((run_append _ r2).trans r3), c3, fun i hi => ?_, p3⟩
    have : pushVal h2 z none = rd h2 z .r8 := rfl
    rw [this, v2]
    exact pushf_image z hz vme hv h.g.fl i hi
  · exact (run_append _ r1).trans ((run_append _ r2).trans (s2 hk))

theorem iopl_shift (w : BitVec 32) : ((w &&& 0x3000#32) >>> 12).toNat = ioplOf w := by
  have : (w &&& 0x3000#32) >>> 12 = (w >>> 12) &&& 3#32 := by bits32
  rw [this, BitVec.toNat_and, BitVec.toNat_ushiftRight]
  show _ &&& 3 = _
  rw [show (3 : Nat) = 2 ^ 2 - 1 from rfl, Nat.and_two_pow_sub_one_eq_mod, Nat.shiftRight_eq_div_pow]
  rfl

theorem load2_lt (m : Mem) (a : BitVec 32) : load m a 2 < 2 ^ 16 := load_lt m a 2

/-- C102, POPF outside virtual 8086 mode, or with IOPL 3: the arithmetic flags come from the popped word; of the system flags those that the
privilege level allows, and only they, take the popped value; the stack pointer moves up.  A fault leaves everything as it was. -/
theorem C102_popf {e : Env} {h : Host.St} (hc : h.r .rcx = e.ctx) (ho : Flags.Ok h.g.fl) {s : Ss} (hf : FlatOk e s) {z : Sz} (hz : z = .w ∨ z = .d) (cpl : BitVec 32) :
    let code := popf s z (Flags.popfMask cpl ((h.g.fl.eflags &&& 0x3000#32) >>> 12) (z == .d))
    let v := BitVec.ofNat 32 (load h.g.mem (slot e (spOff s h.g)) z.bytes)
    (e.ok (slot e (spOff s h.g)) z.bytes false = true → ∃ h' : Host.St, run e 0 code h = .next 0 h' ∧ h'.r .rcx = e.ctx ∧
      SpAt s h.g { h'.g with fl := h.g.fl } (up s h.g z.bytes) h.g.mem ∧ Flags.Ok h'.g.fl ∧
      Flags.flags h'.g.fl = Flags.Spec.ofEflags v ∧
      ∀ i, i < 32 → (mayPop cpl.toNat (ioplOf h.g.fl.eflags) z i → h'.g.fl.eflags.getLsbD i = v.getLsbD i) ∧
        (¬ mayPop cpl.toNat (ioplOf h.g.fl.eflags) z i → h'.g.fl.eflags.getLsbD i = h.g.fl.eflags.getLsbD i)) ∧
    (e.ok (slot e (spOff s h.g)) z.bytes false = false → run e 0 code h = .fault h.g) := by
  intro code v
  have hr := popf_run hc s z hz (Flags.popfMask cpl ((h.g.fl.eflags &&& 0x3000#32) >>> 12) (z == .d))
  obtain ⟨s1, s2⟩ := popVal_spec hf h.g hz
  refine ⟨fun hk => ?_, fun hk => ?_⟩
  · obtain ⟨p, p1, p2⟩ := s1 hk
    rw [p1] at hr
    obtain ⟨h', r', c', g'⟩ := hr
    have hop : Flags.popfUpdate h.g.fl v (Flags.popfMask cpl ((h.g.fl.eflags &&& 0x3000#32) >>> 12) (z == .d)) = Flags.popfOp h.g.fl v cpl (z == .d) := by
      unfold Flags.popfOp
      rcases hz with rfl | rfl
      · have : (if (Sz.w == Sz.d) = true then v else v &&& 0xFFFF#32) = v := by
          rw [if_neg (by decide)]
          apply BitVec.eq_of_toNat_eq
          rw [BitVec.toNat_and]
          show v.toNat &&& (2 ^ 16 - 1) = _
          rw [Nat.and_two_pow_sub_one_eq_mod, Nat.mod_eq_of_lt]
          have := load2_lt h.g.mem (slot e (spOff s h.g))
          show (BitVec.ofNat 32 _).toNat < _
          rw [BitVec.toNat_ofNat]
          exact Nat.lt_of_le_of_lt (Nat.mod_le _ _) this
        rw [this]
      · rw [if_pos (by decide)]
    have gf : h'.g.fl = Flags.popfOp h.g.fl v cpl (z == .d) := by rw [g', ← hop]
    obtain ⟨a1, a2⟩ := Flags.C57_popf_arith h.g.fl ho v cpl (z == .d)
    refine ⟨h', r', c', ⟨?_, ?_, ?_, rfl, ?_⟩, by rw [gf]; exact a2, by rw [gf]; exact a1, fun i hi => ?_⟩
    · rw [g']; exact p2.off
    · rw [g']; exact p2.high
    · rw [g']; exact p2.regs
    · rw [g']; exact p2.mem
    · obtain ⟨b1, b2⟩ := Flags.C57_popf_system h.g.fl ho v cpl (z == .d) i hi
      rw [iopl_shift] at b1 b2
      rw [gf]
      have hall : mayPop cpl.toNat (ioplOf h.g.fl.eflags) z i ↔ Flags.PopfAllowed cpl.toNat (ioplOf h.g.fl.eflags) (z == .d) i := by
        unfold mayPop Flags.PopfAllowed
        rw [beq_iff_eq]
      rw [hall]
      refine ⟨fun ha => ?_, b2⟩
      rw [b1 ha]
      rcases hz with rfl | rfl
      · have : decide (i < 16) = true := by
          unfold Flags.PopfAllowed at ha
          have : (Sz.w == Sz.d) = false := rfl
          rw [this] at ha
          rw [decide_eq_true_eq]
          rcases ha with rfl | rfl | rfl | ⟨rfl, -⟩ | ⟨rfl | rfl, -⟩ | ⟨-, ha⟩
          · decide
          · decide
          · decide
          · decide
          · decide
          · decide
          · cases ha
        rw [this]; simp
      · show (v.getLsbD i && (true || _)) = _
        simp
  · rw [s2 hk] at hr
    exact hr

theorem flags_lazy {s t : Flags.St} (hs : Flags.Clean s) (ht : Flags.Clean t) (h1 : s.res = t.res) (h2 : s.aux = t.aux) : Flags.flags s = Flags.flags t := by
  have hp : Flags.parIdx s = Flags.parIdx t := by unfold Flags.parIdx; rw [h1, h2]
  rw [Flags.flags_eq hs, Flags.flags_eq ht, hp, h1, h2]

theorem vmeGp_iff (w v : BitVec 32) (hv : v.toNat < 2 ^ 16) :
    vmeGp w v ↔ (w.getLsbD 20 = true ∧ (w.getLsbD 9 = true ∨ v.getLsbD 9 = true)) ∨ v.getLsbD 8 = true := by
  have hv20 : v.getLsbD 20 = false := by
    show v.toNat.testBit 20 = false
    exact Nat.testBit_lt_two_pow (by omega)
  unfold vmeGp
  have e1 : (w ||| v) &&& 0x100200#32 = 0x100200#32 ↔ ((w ||| v).getLsbD 20 = true ∧ (w ||| v).getLsbD 9 = true) := by
    generalize w ||| v = x
    constructor
    · intro h
      have a := congrArg (fun y : BitVec 32 => y.getLsbD 20) h
      have b := congrArg (fun y : BitVec 32 => y.getLsbD 9) h
      simp only [BitVec.getLsbD_and] at a b
      exact ⟨by simpa using a, by simpa using b⟩
    · intro ⟨a, b⟩
      have : x &&& 0x100200#32 = (BitVec.ofBool (x.getLsbD 20)).setWidth 32 <<< 20 ||| (BitVec.ofBool (x.getLsbD 9)).setWidth 32 <<< 9 := by bits32
      rw [this, a, b]; rfl
  have e2 : v &&& 0x100#32 ≠ 0#32 ↔ v.getLsbD 8 = true := by
    have : v &&& 0x100#32 = (BitVec.ofBool (v.getLsbD 8)).setWidth 32 <<< 8 := by bits32
    rw [this]
    cases v.getLsbD 8 <;> simp
  rw [e1, e2, BitVec.getLsbD_or, BitVec.getLsbD_or, hv20]
  simp

theorem vme_bits (w v : BitVec 32) (h1 : w.getLsbD 1 = true) (i : Nat) (hi : i < 32) :
    (((vifFrom w v &&& ~~~0x4500#32) ||| (v &&& 0x4500#32)) ||| 2#32).getLsbD i =
      if i = 19 then v.getLsbD 9 else if i = 8 ∨ i = 10 ∨ i = 14 then v.getLsbD i else w.getLsbD i := by
  unfold vifFrom
  rcases (by omega : i = 0 ∨ i = 1 ∨ i = 2 ∨ i = 3 ∨ i = 4 ∨ i = 5 ∨ i = 6 ∨ i = 7 ∨ i = 8 ∨ i = 9 ∨ i = 10 ∨ i = 11 ∨ i = 12 ∨ i = 13 ∨ i = 14 ∨ i = 15 ∨ i = 16 ∨ i = 17 ∨ i = 18 ∨ i = 19 ∨ i = 20 ∨ i = 21 ∨ i = 22 ∨ i = 23 ∨ i = 24 ∨ i = 25 ∨ i = 26 ∨ i = 27 ∨ i = 28 ∨ i = 29 ∨ i = 30 ∨ i = 31) with
    h | h | h | h | h | h | h | h | h | h | h | h | h | h | h | h | h | h | h | h | h | h | h | h | h | h | h | h | h | h | h | h <;>
  subst h <;> simp only [BitVec.getLsbD_or, BitVec.getLsbD_and, BitVec.getLsbD_not, BitVec.getLsbD_shiftLeft, h1] <;> simp
theorem vme_ok {f f' : Flags.St} {v : BitVec 32} (ho : Flags.Ok f)
    (hbits : ∀ i, i < 32 → f'.eflags.getLsbD i = if i = 19 then v.getLsbD 9 else if i = 8 ∨ i = 10 ∨ i = 14 then v.getLsbD i else f.eflags.getLsbD i) : Flags.Ok f' := by
  obtain ⟨k0, k2, k4, k6, k7, k11⟩ := Flags.clean_iff.mp ho.1
  refine ⟨Flags.clean_iff.mpr ⟨?_, ?_, ?_, ?_, ?_, ?_⟩, ?_⟩
  · exact (hbits 0 (by decide)).trans k0
  · exact (hbits 2 (by decide)).trans k2
  · exact (hbits 4 (by decide)).trans k4
  · exact (hbits 6 (by decide)).trans k6
  · exact (hbits 7 (by decide)).trans k7
  · exact (hbits 11 (by decide)).trans k11
  · exact (hbits 1 (by decide)).trans ho.2
theorem vme_gp (w v : BitVec 32) (hv16 : v.toNat < 2 ^ 16) (hx : ¬ (w.getLsbD 20 = true ∧ w.getLsbD 9 = true ∧ v.getLsbD 9 = false ∧ v.getLsbD 8 = false)) :
    vmeGp w v ↔ vmeRefuses w v := by
  rw [vmeGp_iff w v hv16]
  unfold vmeRefuses
  revert hx
  cases w.getLsbD 20 <;> cases w.getLsbD 9 <;> cases v.getLsbD 9 <;> cases v.getLsbD 8 <;> simp
theorem vme_flags {f f' : Flags.St} {w v : BitVec 32} (ho : Flags.Ok f) (h1 : Flags.Ok f') (he : f' = Flags.popfUpdate { f with eflags := w } v 0x4500#32) :
    Flags.flags f' = Flags.Spec.ofEflags v := by
  obtain ⟨a1, a2⟩ := Flags.C57_popf_arith f ho v 0#32 true
  have e1 : Flags.popfOp f v 0#32 true = Flags.popfUpdate f v (Flags.popfMask 0#32 ((f.eflags &&& 0x3000#32) >>> 12) true) := by
    unfold Flags.popfOp
    rw [if_pos rfl]
  rw [← a1]
  refine flags_lazy h1.1 a2.1 ?_ ?_
  · rw [he, e1, (Flags.popf_lazy _ _ _).1, (Flags.popf_lazy _ _ _).1]
  · rw [he, e1, (Flags.popf_lazy _ _ _).2, (Flags.popf_lazy _ _ _).2]
theorem popped_lt (m : Mem) (a : BitVec 32) : (BitVec.ofNat 32 (load m a 2)).toNat < 2 ^ 16 := by
  rw [BitVec.toNat_ofNat]
  exact Nat.lt_of_le_of_lt (Nat.mod_le _ _) (load2_lt _ _)

/-- C102, POPF under the virtual 8086 mode extensions, except where an interrupt is pending with IF set but the popped IF clear: it raises #GP,
leaving everything as it was, exactly where the manual says; otherwise VIF takes the popped IF, TF, DF and NT and the arithmetic flags
take their popped values, and the other flags, IF and IOPL among them, stay. -/
theorem C102_popf_vme_partial {e : Env} {h : Host.St} (hc : h.r .rcx = e.ctx) (ho : Flags.Ok h.g.fl) {s : Ss} (hf : FlatOk e s) :
    let w := h.g.fl.eflags
    let v := BitVec.ofNat 32 (load h.g.mem (slot e (spOff s h.g)) 2)
    ¬ (w.getLsbD 20 = true ∧ w.getLsbD 9 = true ∧ v.getLsbD 9 = false ∧ v.getLsbD 8 = false) →
    (e.ok (slot e (spOff s h.g)) 2 false = true → vmeRefuses w v → popfVme e s h = .fault h.g) ∧
    (e.ok (slot e (spOff s h.g)) 2 false = true → ¬ vmeRefuses w v → ∃ h' : Host.St, popfVme e s h = .next 0 h' ∧ h'.r .rcx = e.ctx ∧
      SpAt s h.g { h'.g with fl := h.g.fl } (up s h.g 2) h.g.mem ∧ Flags.Ok h'.g.fl ∧ Flags.flags h'.g.fl = Flags.Spec.ofEflags v ∧
      ∀ i, i < 32 → h'.g.fl.eflags.getLsbD i = if i = 19 then v.getLsbD 9 else if i = 8 ∨ i = 10 ∨ i = 14 then v.getLsbD i else w.getLsbD i) ∧
    (e.ok (slot e (spOff s h.g)) 2 false = false → popfVme e s h = .fault h.g) := by
  intro w v hx
  have hr := popfVme_run hc s
  obtain ⟨s1, s2⟩ := popVal_spec hf h.g (.inl rfl : (Sz.w = Sz.w ∨ Sz.w = Sz.d))
  rw [show Sz.w.bytes = 2 from rfl] at s1 s2
  have hv16 : v.toNat < 2 ^ 16 := popped_lt _ _
  have hgp : vmeGp w v ↔ vmeRefuses w v := vme_gp w v hv16 hx
  refine ⟨fun hk hg => ?_, fun hk hg => ?_, fun hk => ?_⟩
  · obtain ⟨p, p1, p2⟩ := s1 hk
    rw [p1] at hr
    exact (if_pos (hgp.2 hg)).mp hr
  · obtain ⟨p, p1, p2⟩ := s1 hk
    rw [p1] at hr
    obtain ⟨h', r', c', g'⟩ := (if_neg (fun hh => hg (hgp.1 hh))).mp hr
    have g'' : h'.g.fl = Flags.popfUpdate { h.g.fl with eflags := vifFrom w v } v 0x4500#32 := by rw [g']
    have hbits : ∀ i, i < 32 → h'.g.fl.eflags.getLsbD i = if i = 19 then v.getLsbD 9 else if i = 8 ∨ i = 10 ∨ i = 14 then v.getLsbD i else w.getLsbD i := by
      intro i hi
      rw [g'']
      exact vme_bits w v ho.2 i hi
    have hok : Flags.Ok h'.g.fl := vme_ok ho hbits
    refine ⟨h', r', c', ⟨?_, ?_, ?_, rfl, ?_⟩, hok, ?_, hbits⟩
    · rw [g']; exact p2.off
    · rw [g']; exact p2.high
    · rw [g']; exact p2.regs
    · rw [g']; exact p2.mem
    · exact vme_flags ho hok g''
  · rw [s2 hk] at hr
    exact hr

/-- C102, violation: POPF under the virtual 8086 mode extensions with an interrupt pending and IF (not VIF) set raises #GP although the popped
word has IF clear, which the manual allows. -/
theorem C102_popf_vme_violation : ∃ (e : Env) (h : Host.St) (s : Ss), h.r .rcx = e.ctx ∧ Flags.Ok h.g.fl ∧ FlatOk e s ∧
    e.ok (slot e (spOff s h.g)) 2 false = true ∧ ¬ vmeRefuses h.g.fl.eflags (BitVec.ofNat 32 (load h.g.mem (slot e (spOff s h.g)) 2)) ∧
    popfVme e s h = .fault h.g := by
  refine ⟨exEnv, { exSt with g := { gpr := fun _ => 0x100#32, fl := ⟨0x120202#32, 0x100#32, 0#32⟩, mem := fun _ => 0#8 } }, ⟨false, false⟩, rfl,
    ⟨by unfold Flags.Clean; decide, by decide⟩, fun h => (by cases h), rfl, ?_, ?_⟩
  · unfold vmeRefuses
    decide +kernel
  · have hr := popfVme_run (e := exEnv) (h := { exSt with g := { gpr := fun _ => 0x100#32, fl := ⟨0x120202#32, 0x100#32, 0#32⟩, mem := fun _ => 0#8 } }) rfl ⟨false, false⟩
    obtain ⟨p, p1, -⟩ := (popVal_spec (e := exEnv) (s := ⟨false, false⟩) (fun h => (by cases h))
      ({ gpr := fun _ => 0x100#32, fl := ⟨0x120202#32, 0x100#32, 0#32⟩, mem := fun _ => 0#8 } : G) (.inl rfl : (Sz.w = Sz.w ∨ Sz.w = Sz.d))).1 rfl
    have p1' : Stack.popVal exEnv.ok (view exEnv ⟨false, false⟩ ({ gpr := fun _ => 0x100#32, fl := ⟨0x120202#32, 0x100#32, 0#32⟩, mem := fun _ => 0#8 } : G) 0x100#32) 2 =
      some (load (fun _ => 0#8) (slot exEnv (spOff ⟨false, false⟩ ({ gpr := fun _ => 0x100#32, fl := ⟨0x120202#32, 0x100#32, 0#32⟩, mem := fun _ => 0#8 } : G))) 2, p) := p1
    rw [p1'] at hr
    refine (if_pos ?_).mp hr
    unfold vmeGp
    decide +kernel

/-! ### DIV and IDIV -/

theorem ext16 {x y : BitVec 32} (h1 : Div.lo16 x = Div.lo16 y) (h2 : Div.hi16 x = Div.hi16 y) : x = y := by
  have e : ∀ z : BitVec 32, z = (Div.hi16 z).setWidth 32 <<< 16 ||| (Div.lo16 z).setWidth 32 := by
    intro z; unfold Div.hi16 Div.lo16; bits32
  rw [e x, e y, h1, h2]
theorem ext8 {x y : BitVec 32} (h1 : Div.al x = Div.al y) (h2 : Div.ah x = Div.ah y) (h3 : Div.hi16 x = Div.hi16 y) : x = y := by
  have e : ∀ z : BitVec 32, z = (Div.hi16 z).setWidth 32 <<< 16 ||| (Div.ah z).setWidth 32 <<< 8 ||| (Div.al z).setWidth 32 := by
    intro z; unfold Div.hi16 Div.al Div.ah; bits32
  rw [e x, e y, h1, h2, h3]
theorem ofNat_int {n : Nat} (x : BitVec n) (q : Int) (h : (x.toNat : Int) = q) : x = BitVec.ofInt n q := by
  rw [← h]
  simp
theorem ofInt_int {n : Nat} (x : BitVec n) (q : Int) (h : x.toInt = q) : x = BitVec.ofInt n q := by
  rw [← h, BitVec.ofInt_toInt]
theorem asInt_ofInt (sg : Bool) {n : Nat} (x : BitVec n) (q : Int) (h : asInt sg x = q) : x = BitVec.ofInt n q := by
  cases sg
  · exact ofNat_int x q h
  · exact ofInt_int x q h

theorem setDiv_b (g : G) (a : BitVec 32) (q r : Int) (h1 : Div.al a = BitVec.ofInt 8 q) (h2 : Div.ah a = BitVec.ofInt 8 r) (h3 : Div.hi16 a = Div.hi16 (g.gpr 0)) :
    { g with gpr := fun i => if i = 0 then a else if i = 2 then g.gpr 2 else g.gpr i } = setDiv g .b q r := by
  unfold setDiv
  rw [if_pos rfl]
  refine gExt (fun i => ?_) rfl rfl
  show (if i = 0 then a else if i = 2 then g.gpr 2 else g.gpr i) = (if i = 0 then putG .b true (if (0 : Fin 8) = 0 then putG .b false (g.gpr 0) (BitVec.ofInt 8 q) else g.gpr 0) (BitVec.ofInt 8 r) else
    if i = 0 then putG .b false (g.gpr 0) (BitVec.ofInt 8 q) else g.gpr i)
  by_cases h0 : i = 0
  · rw [if_pos h0, if_pos h0, if_pos rfl]
    rw [← h1, ← h2]
    show a = (((g.gpr 0 &&& 0xFFFFFF00#32) ||| (Div.al a).setWidth 32) &&& 0xFFFF00FF#32) ||| ((Div.ah a).setWidth 32 <<< 8)
    generalize g.gpr 0 = o at *
    refine ext8 ?_ ?_ (h3.trans ?_)
    · unfold Div.al; bits8
    · unfold Div.al Div.ah; bits8
    · unfold Div.al Div.ah Div.hi16; bits16
  · rw [if_neg h0, if_neg h0, if_neg h0]
    split
    · rename_i h; rw [h]
    · rfl
theorem setDiv_w (g : G) (a c : BitVec 32) (q r : Int) (h1 : Div.lo16 a = BitVec.ofInt 16 q) (h2 : Div.lo16 c = BitVec.ofInt 16 r) (h3 : Div.hi16 a = Div.hi16 (g.gpr 0)) (h4 : Div.hi16 c = Div.hi16 (g.gpr 2)) :
    { g with gpr := fun i => if i = 0 then a else if i = 2 then c else g.gpr i } = setDiv g .w q r := by
  unfold setDiv
  rw [if_neg (by decide)]
  refine gExt (fun i => ?_) rfl rfl
  show (if i = 0 then a else if i = 2 then c else g.gpr i) = (if i = 2 then putG .w false (if (2 : Fin 8) = 0 then putG .w false (g.gpr 0) (BitVec.ofInt 16 q) else g.gpr 2) (BitVec.ofInt 16 r) else
    if i = 0 then putG .w false (g.gpr 0) (BitVec.ofInt 16 q) else g.gpr i)
  have hput : ∀ (o x : BitVec 32) (y : BitVec 16), Div.lo16 x = y → Div.hi16 x = Div.hi16 o → x = putG .w false o y := by
    intro o x y hx hy
    rw [← hx]
    show x = (o &&& 0xFFFF0000#32) ||| (Div.lo16 x).setWidth 32
    refine ext16 ?_ (hy.trans ?_)
    · unfold Div.lo16; bits16
    · unfold Div.lo16 Div.hi16; bits16
  by_cases h0 : i = 0
  · rw [if_pos h0, if_neg (by rw [h0]; decide), if_pos h0]
    exact hput _ _ _ h1 h3
  · rw [if_neg h0, if_neg h0]
    by_cases h5 : i = 2
    · rw [if_pos h5, if_pos h5, if_neg (by decide)]
      exact hput _ _ _ h2 h4
    · rw [if_neg h5, if_neg h5]
theorem setDiv_d (g : G) (a c : BitVec 32) (q r : Int) (h1 : a = BitVec.ofInt 32 q) (h2 : c = BitVec.ofInt 32 r) :
    { g with gpr := fun i => if i = 0 then a else if i = 2 then c else g.gpr i } = setDiv g .d q r := by
  unfold setDiv
  rw [if_neg (by decide)]
  refine gExt (fun i => ?_) rfl rfl
  rw [h1, h2]
  show (if i = 0 then BitVec.ofInt 32 q else if i = 2 then BitVec.ofInt 32 r else g.gpr i) = (if i = 2 then BitVec.ofInt 32 r else if i = 0 then BitVec.ofInt 32 q else g.gpr i)
  by_cases h0 : i = 0
  · rw [if_pos h0, if_neg (by rw [h0]; decide), if_pos h0]
  · rw [if_neg h0, if_neg h0]

/-- What the helper does, in the terms of the specification. -/
def HelpOk (sg : Bool) (z : Sz) (g : G) (d : BitVec z.bits) : Prop :=
  let q := (dividend sg z g).tdiv (asInt sg d)
  let r := (dividend sg z g).tmod (asInt sg d)
  (divHelper sg z (g.gpr 0) (g.gpr 2) (d.setWidth 64) = .de ↔ asInt sg d = 0 ∨ ¬ fits sg z.bits q) ∧
  divHelper sg z (g.gpr 0) (g.gpr 2) (d.setWidth 64) ≠ .ub ∧
  ∀ a c, divHelper sg z (g.gpr 0) (g.gpr 2) (d.setWidth 64) = .ok a c →
    { g with gpr := fun i => if i = 0 then a else if i = 2 then c else g.gpr i } = setDiv g z q r

theorem tdiv_nat (a b : Nat) : ((a : Int).tdiv (b : Int)) = ((a / b : Nat) : Int) := rfl
theorem tmod_nat (a b : Nat) : ((a : Int).tmod (b : Int)) = ((a % b : Nat) : Int) := rfl
theorem fits_nat (n a : Nat) : fits false n (a : Int) ↔ a < 2 ^ n := by
  unfold fits
  rw [if_neg (by decide)]
  rw [show ((2 : Int) ^ n) = ((2 ^ n : Nat) : Int) by simp]
  omega

theorem help_unsigned (z : Sz) (hz : z ≠ .q) (g : G) (d : BitVec z.bits) : HelpOk false z g d := by
  unfold HelpOk
  intro q r
  have hq : ∀ n : Nat, dividend false z g = (n : Int) → q = ((n / d.toNat : Nat) : Int) ∧ r = ((n % d.toNat : Nat) : Int) := by
    intro n hn
    show (dividend false z g).tdiv (asInt false d) = _ ∧ (dividend false z g).tmod (asInt false d) = _
    rw [hn]
    exact ⟨tdiv_nat _ _, tmod_nat _ _⟩
  have h0 : asInt false d = 0 ↔ d.toNat = 0 := by
    show (d.toNat : Int) = 0 ↔ _
    omega
  rw [h0]
  cases z with
  | q => exact absurd rfl hz
  | b =>
    obtain ⟨q1, r1⟩ := hq (Div.udividend8 (g.gpr 0)) rfl
    obtain ⟨p1, p2, p3⟩ := Div.C31_div8 (g.gpr 0) (g.gpr 2) d
    have hd : divHelper false .b (g.gpr 0) (g.gpr 2) (d.setWidth 64) = Div.divb (g.gpr 0) (g.gpr 2) d := by
      show Div.divb _ _ (BitVec.setWidth 8 (BitVec.setWidth 64 d)) = _
      rw [BitVec.setWidth_setWidth_of_le _ (by decide)]
      exact congrArg _ (BitVec.setWidth_eq d)
    rw [hd, q1, r1, fits_nat]
    refine ⟨by rw [p1]; show _ ↔ _ ∨ ¬ _ < 2 ^ 8; omega, p2, fun a c h => ?_⟩
    obtain ⟨b1, b2, b3, b4⟩ := p3 a c h
    rw [b4]
    exact setDiv_b g a _ _ (ofNat_int _ _ (by rw [b1])) (ofNat_int _ _ (by rw [b2])) b3
  | w =>
    obtain ⟨q1, r1⟩ := hq (Div.udividend16 (g.gpr 0) (g.gpr 2)) (by
      unfold Div.udividend16
      rw [Int.natCast_add, Int.natCast_mul]
      rfl)
    obtain ⟨p1, p2, p3⟩ := Div.C31_div16 (g.gpr 0) (g.gpr 2) d
    have hd : divHelper false .w (g.gpr 0) (g.gpr 2) (d.setWidth 64) = Div.divw (g.gpr 0) (g.gpr 2) d := by
      show Div.divw _ _ (BitVec.setWidth 16 (BitVec.setWidth 64 d)) = _
      rw [BitVec.setWidth_setWidth_of_le _ (by decide)]
      exact congrArg _ (BitVec.setWidth_eq d)
    rw [hd, q1, r1, fits_nat]
    refine ⟨by rw [p1]; show _ ↔ _ ∨ ¬ _ < 2 ^ 16; omega, p2, fun a c h => ?_⟩
    obtain ⟨b1, b2, b3, b4⟩ := p3 a c h
    exact setDiv_w g a c _ _ (ofNat_int _ _ (by rw [b1])) (ofNat_int _ _ (by rw [b2])) b3 b4
  | d =>
    obtain ⟨q1, r1⟩ := hq (Div.udividend32 (g.gpr 0) (g.gpr 2)) (by
      unfold Div.udividend32
      rw [Int.natCast_add, Int.natCast_mul]
      rfl)
    obtain ⟨p1, p2, p3⟩ := Div.C31_div32 (g.gpr 0) (g.gpr 2) d
    have hd : divHelper false .d (g.gpr 0) (g.gpr 2) (d.setWidth 64) = Div.divd (g.gpr 0) (g.gpr 2) d := by
      show Div.divd _ _ (BitVec.setWidth 32 (BitVec.setWidth 64 d)) = _
      rw [BitVec.setWidth_setWidth_of_le _ (by decide)]
      exact congrArg _ (BitVec.setWidth_eq d)
    rw [hd, q1, r1, fits_nat]
    refine ⟨by rw [p1]; show _ ↔ _ ∨ ¬ _ < 2 ^ 32; omega, p2, fun a c h => ?_⟩
    obtain ⟨b1, b2⟩ := p3 a c h
    exact setDiv_d g a c _ _ (ofNat_int _ _ (by rw [b1])) (ofNat_int _ _ (by rw [b2]))

/-- The one dividend and divisor for which the host's division overflows. -/
def Overflows (z : Sz) (g : G) (d : BitVec z.bits) : Prop := z ≠ .b ∧ dividend true z g = -2 ^ (2 * z.bits - 1) ∧ d.toInt = -1

theorem help_signed (z : Sz) (hz : z ≠ .q) (g : G) (d : BitVec z.bits) (hne : ¬ Overflows z g d) : HelpOk true z g d := by
  unfold HelpOk
  intro q r
  have h0 : asInt true d = d.toInt := rfl
  rw [h0]
  unfold Overflows at hne
  have hq : q = (dividend true z g).tdiv d.toInt := rfl
  have hr : r = (dividend true z g).tmod d.toInt := rfl
  cases z with
  | q => exact absurd rfl hz
  | b =>
    obtain ⟨p1, p2, p3⟩ := Div.C31_idiv8 (g.gpr 0) (g.gpr 2) d
    have hd : divHelper true .b (g.gpr 0) (g.gpr 2) (d.setWidth 64) = Div.idivb (g.gpr 0) (g.gpr 2) d := by
      show Div.idivb _ _ (BitVec.setWidth 8 (BitVec.setWidth 64 d)) = _
      rw [BitVec.setWidth_setWidth_of_le _ (by decide)]
      exact congrArg _ (BitVec.setWidth_eq d)
    rw [hd]
    refine ⟨p1, p2, fun a c h => ?_⟩
    obtain ⟨b1, b2, b3, b4⟩ := p3 a c h
    rw [b4]
    exact setDiv_b g a _ _ (ofInt_int _ _ b1) (ofInt_int _ _ b2) b3
  | w =>
    obtain ⟨p1, p2, p3⟩ := Div.C31_idiv16_partial (g.gpr 0) (g.gpr 2) d (fun hh => hne ⟨by decide, hh.1, hh.2⟩)
    have hd : divHelper true .w (g.gpr 0) (g.gpr 2) (d.setWidth 64) = Div.idivw (g.gpr 0) (g.gpr 2) d := by
      show Div.idivw _ _ (BitVec.setWidth 16 (BitVec.setWidth 64 d)) = _
      rw [BitVec.setWidth_setWidth_of_le _ (by decide)]
      exact congrArg _ (BitVec.setWidth_eq d)
    rw [hd]
    refine ⟨p1, p2, fun a c h => ?_⟩
    obtain ⟨b1, b2, b3, b4⟩ := p3 a c h
    exact setDiv_w g a c _ _ (ofInt_int _ _ b1) (ofInt_int _ _ b2) b3 b4
  | d =>
    obtain ⟨p1, p2, p3⟩ := Div.C31_idiv32_partial (g.gpr 0) (g.gpr 2) d (fun hh => hne ⟨by decide, hh.1, hh.2⟩)
    have hd : divHelper true .d (g.gpr 0) (g.gpr 2) (d.setWidth 64) = Div.idivd (g.gpr 0) (g.gpr 2) d := by
      show Div.idivd _ _ (BitVec.setWidth 32 (BitVec.setWidth 64 d)) = _
      rw [BitVec.setWidth_setWidth_of_le _ (by decide)]
      exact congrArg _ (BitVec.setWidth_eq d)
    rw [hd]
    refine ⟨p1, p2, fun a c h => ?_⟩
    obtain ⟨b1, b2⟩ := p3 a c h
    exact setDiv_d g a c _ _ (ofInt_int _ _ b1) (ofInt_int _ _ b2)

theorem div_ends {e : Env} {h : Host.St} (hc : h.r .rcx = e.ctx) (sg : Bool) (z : Sz) (eip : BitVec 64) (rm : Rm) (hh : HelpOk sg z h.g ((ofRm rm).get h.g z)) :
    let q := (dividend sg z h.g).tdiv (asInt sg ((ofRm rm).get h.g z))
    let r := (dividend sg z h.g).tmod (asInt sg ((ofRm rm).get h.g z))
    ((ofRm rm).ok e z false = true → asInt sg ((ofRm rm).get h.g z) = 0 ∨ ¬ fits sg z.bits q → ∃ h' : Host.St, run e 0 (div sg z eip rm) h = .next 0 h' ∧ h'.r .rcx = e.ctx ∧ h'.g = h.g) ∧
    ((ofRm rm).ok e z false = true → asInt sg ((ofRm rm).get h.g z) ≠ 0 ∧ fits sg z.bits q → ∃ h' : Host.St, run e 0 (div sg z eip rm) h = .next 1 h' ∧ h'.r .rcx = e.ctx ∧ h'.g = setDiv h.g z q r) ∧
    ((ofRm rm).ok e z false = false → run e 0 (div sg z eip rm) h = .fault h.g) := by
  intro q r
  obtain ⟨p1, p2, p3⟩ := hh
  refine ⟨fun hk hd => ?_, fun hk hd => ?_, fun hk => ?_⟩
  · have hr := div_run hc sg z eip rm hk
    rw [p1.2 hd] at hr
    exact hr
  · have hr := div_run hc sg z eip rm hk
    cases hx : divHelper sg z (h.g.gpr 0) (h.g.gpr 2) (((ofRm rm).get h.g z).setWidth 64) with
    | de => exact absurd (p1.1 hx) (fun hn => hn.elim hd.1 (fun hn => hn hd.2))
    | ub => exact absurd hx p2
    | ok a c =>
      rw [hx] at hr
      obtain ⟨h', r1, c1, g1⟩ := hr
      exact ⟨h', r1, c1, g1.trans (p3 a c hx)⟩
  · cases rm with
    | reg r => cases hk
    | mem a => exact div_fault hc sg z eip a hk

/-- C102, DIV: a divide error, with nothing changed, exactly when the divisor is zero or the quotient does not fit; else quotient and
remainder of AX, DX:AX or EDX:EAX.  Falling off the end of the code is where #DE is raised, one instruction further the next instruction.
A fault reading the operand leaves everything as it was. -/
theorem C102_div {e : Env} {h : Host.St} (hc : h.r .rcx = e.ctx) {z : Sz} (hz : z ≠ .q) (eip : BitVec 64) (rm : Rm) :
    let d := asInt false ((ofRm rm).get h.g z)
    let q := (dividend false z h.g).tdiv d
    let r := (dividend false z h.g).tmod d
    ((ofRm rm).ok e z false = true → d = 0 ∨ ¬ fits false z.bits q → ∃ h' : Host.St, run e 0 (div false z eip rm) h = .next 0 h' ∧ h'.r .rcx = e.ctx ∧ h'.g = h.g) ∧
    ((ofRm rm).ok e z false = true → d ≠ 0 ∧ fits false z.bits q → ∃ h' : Host.St, run e 0 (div false z eip rm) h = .next 1 h' ∧ h'.r .rcx = e.ctx ∧ h'.g = setDiv h.g z q r) ∧
    ((ofRm rm).ok e z false = false → run e 0 (div false z eip rm) h = .fault h.g) :=
  div_ends hc false z eip rm (help_unsigned z hz _ _)

/-- C102, IDIV, except where a 16 or 32 bit one divides the least dividend by minus one: the same with signed numbers. -/
theorem C102_idiv_partial {e : Env} {h : Host.St} (hc : h.r .rcx = e.ctx) {z : Sz} (hz : z ≠ .q) (eip : BitVec 64) (rm : Rm)
    (hne : ¬ (z ≠ .b ∧ dividend true z h.g = -2 ^ (2 * z.bits - 1) ∧ asInt true ((ofRm rm).get h.g z) = -1)) :
    let d := asInt true ((ofRm rm).get h.g z)
    let q := (dividend true z h.g).tdiv d
    let r := (dividend true z h.g).tmod d
    ((ofRm rm).ok e z false = true → d = 0 ∨ ¬ fits true z.bits q → ∃ h' : Host.St, run e 0 (div true z eip rm) h = .next 0 h' ∧ h'.r .rcx = e.ctx ∧ h'.g = h.g) ∧
    ((ofRm rm).ok e z false = true → d ≠ 0 ∧ fits true z.bits q → ∃ h' : Host.St, run e 0 (div true z eip rm) h = .next 1 h' ∧ h'.r .rcx = e.ctx ∧ h'.g = setDiv h.g z q r) ∧
    ((ofRm rm).ok e z false = false → run e 0 (div true z eip rm) h = .fault h.g) :=
  div_ends hc true z eip rm (help_signed z hz _ _ hne)

theorem div_ub {e : Env} {h : Host.St} (hc : h.r .rcx = e.ctx) (sg : Bool) (z : Sz) (eip : BitVec 64) (rm : Rm) (hk : (ofRm rm).ok e z false = true)
    (hu : divHelper sg z (h.g.gpr 0) (h.g.gpr 2) (((ofRm rm).get h.g z).setWidth 64) = .ub) : run e 0 (div sg z eip rm) h = .stuck := by
  have hr := div_run hc sg z eip rm hk
  rw [hu] at hr
  exact hr

/-- C102, violation: IDIV of EDX:EAX = -2^63 by -1 must raise #DE; the helper's own 64 bit division overflows, which is undefined and ends the
program on the host. -/
theorem C102_idiv_violation : ∃ (e : Env) (h : Host.St), h.r .rcx = e.ctx ∧ ¬ fits true 32 ((dividend true .d h.g).tdiv (asInt true (rdG h.g .d ⟨3, false⟩))) ∧
    run e 0 (div true .d 0#64 (.reg ⟨3, false⟩)) h = .stuck := by
  refine ⟨exEnv, { exSt with g := { exSt.g with gpr := fun i => if i = 0 then 0#32 else if i = 2 then 0x80000000#32 else 0xFFFFFFFF#32 } }, rfl, ?_, ?_⟩
  · unfold fits
    rw [if_pos rfl]
    decide +kernel
  · exact div_ub (e := exEnv) rfl true .d 0#64 (.reg ⟨3, false⟩) rfl (show divHelper true .d 0#32 0x80000000#32 ((0xFFFFFFFF#32).setWidth 64) = .ub by decide +kernel)

/-! ### Decimal adjustments -/

theorem bcd_parts (g : G) (t : Flags.BcdSt) : rdG (bcdTo g t) .b lowAcc = t.al ∧ rdG (bcdTo g t) .b highAcc = t.ah := by
  constructor
  · show (((((g.gpr 0 &&& 0xFFFFFF00#32) ||| t.al.setWidth 32) &&& 0xFFFF00FF#32) ||| (t.ah.setWidth 32 <<< 8)).setWidth 8 : BitVec 8) = _
    generalize g.gpr 0 = x
    bits8
  · show ((((((g.gpr 0 &&& 0xFFFFFF00#32) ||| t.al.setWidth 32) &&& 0xFFFF00FF#32) ||| (t.ah.setWidth 32 <<< 8)) >>> 8).setWidth 8 : BitVec 8) = _
    generalize g.gpr 0 = x
    bits8
theorem bcdTo_adj (g : G) (t : Flags.BcdSt) (h : t.fl.eflags = g.fl.eflags) : Adjusted g (bcdTo g t) := by
  refine ⟨?_, fun i hi => ?_, rfl, h⟩
  · show ((((g.gpr 0 &&& 0xFFFFFF00#32) ||| t.al.setWidth 32) &&& 0xFFFF00FF#32) ||| (t.ah.setWidth 32 <<< 8)) >>> 16 = _
    generalize g.gpr 0 = x
    bits32
  · show (if i = 0 then _ else if i = 0 then _ else g.gpr i) = _
    rw [if_neg hi, if_neg hi]

/-- C102, AAA: if the low digit of AL is above nine or AF is set, 0x106 is added to AX and AF and CF are set, else they are cleared; the high digit
of AL is cleared. -/
theorem C102_aaa {e : Env} {h : Host.St} (hc : h.r .rcx = e.ctx) (hf : Flags.Clean h.g.fl) :
    let adj := decide (9 < (rdG h.g .b lowAcc).toNat % 16) || (Flags.flags h.g.fl).af
    let ax := (rdG h.g .b highAcc).toNat * 256 + (rdG h.g .b lowAcc).toNat + (if adj then 0x106 else 0)
    ∃ h' : Host.St, run e 0 aaa h = .next 0 h' ∧ h'.r .rcx = e.ctx ∧ Adjusted h.g h'.g ∧ (rdG h'.g .b lowAcc).toNat = ax % 16 ∧
      (rdG h'.g .b highAcc).toNat = ax / 256 % 256 ∧ (Flags.flags h'.g.fl).af = adj ∧ (Flags.flags h'.g.fl).cf = adj := by
  intro adj ax
  obtain ⟨h', r, c, g⟩ := aaa_run hc
  obtain ⟨p1, p2, p3, p4, p5⟩ := Flags.C60_aaa (bcdOf h.g) hf
  refine ⟨h', r, c, by rw [g]; exact bcdTo_adj _ _ p5, ?_, ?_, by rw [g]; exact p3, by rw [g]; exact p4⟩
  · rw [g, (bcd_parts _ _).1, p1]
    show ((rdG h.g .b lowAcc).toNat + (if adj then 6 else 0)) % 16 = _
    show _ = ((rdG h.g .b highAcc).toNat * 256 + (rdG h.g .b lowAcc).toNat + (if adj then 0x106 else 0)) % 16
    cases adj <;> simp only [Bool.false_eq_true, if_false, if_true] <;> omega
  · rw [g, (bcd_parts _ _).2, p2]
    rfl

/-- C102, AAS: if the low digit of AL is above nine or AF is set, six is subtracted from AX and one from AH, and AF and CF are set, else they are
cleared; the high digit of AL is cleared. -/
theorem C102_aas {e : Env} {h : Host.St} (hc : h.r .rcx = e.ctx) (hf : Flags.Clean h.g.fl) :
    let adj := decide (9 < (rdG h.g .b lowAcc).toNat % 16) || (Flags.flags h.g.fl).af
    let ax := (rdG h.g .b highAcc).toNat * 256 + (rdG h.g .b lowAcc).toNat
    ∃ h' : Host.St, run e 0 aas h = .next 0 h' ∧ h'.r .rcx = e.ctx ∧ Adjusted h.g h'.g ∧
      (rdG h'.g .b lowAcc).toNat = (if adj then (ax + 65536 - 6) % 16 else ax % 16) ∧
      (rdG h'.g .b highAcc).toNat = (if adj then ((ax + 65536 - 6) / 256 + 255) % 256 else (rdG h.g .b highAcc).toNat) ∧
      (Flags.flags h'.g.fl).af = adj ∧ (Flags.flags h'.g.fl).cf = adj := by
  intro adj ax
  obtain ⟨h', r, c, g⟩ := aas_run hc
  obtain ⟨p1, p2, p3, p4, p5⟩ := Flags.C60_aas (bcdOf h.g) hf
  refine ⟨h', r, c, by rw [g]; exact bcdTo_adj _ _ p5, ?_, ?_, by rw [g]; exact p3, by rw [g]; exact p4⟩
  · rw [g, (bcd_parts _ _).1, p1]
    rfl
  · rw [g, (bcd_parts _ _).2, p2]
    rfl

/-- C102, AAD with base `v`: AL := AL + AH * v, AH := 0, SF, ZF and PF from AL. -/
theorem C102_aad {e : Env} {h : Host.St} (hc : h.r .rcx = e.ctx) (hf : Flags.Clean h.g.fl) (v : BitVec 8) :
    ∃ h' : Host.St, run e 0 (aad v) h = .next 0 h' ∧ h'.r .rcx = e.ctx ∧ Adjusted h.g h'.g ∧
      (rdG h'.g .b lowAcc).toNat = ((rdG h.g .b lowAcc).toNat + (rdG h.g .b highAcc).toNat * v.toNat) % 256 ∧ rdG h'.g .b highAcc = 0#8 ∧ AlFlags h'.g := by
  obtain ⟨h', r, c, g⟩ := aad_run hc v
  obtain ⟨p1, p2, p3, p4, p5⟩ := Flags.C60_aad (bcdOf h.g) hf v
  obtain ⟨q1, q2⟩ := bcd_parts h.g (Flags.aadOp (bcdOf h.g) v)
  refine ⟨h', r, c, by rw [g]; exact bcdTo_adj _ _ rfl, by rw [g, q1]; exact p1, by rw [g, q2]; exact p2, ?_⟩
  unfold AlFlags
  rw [g, q1]
  exact ⟨p3, p4, p5⟩

/-- C102, AAM with base `v`, not zero: AH := AL / v, AL := AL mod v, SF, ZF and PF from AL. -/
theorem C102_aam {e : Env} {h : Host.St} (hc : h.r .rcx = e.ctx) (hf : Flags.Clean h.g.fl) (v : BitVec 8) (hv : v ≠ 0#8) :
    ∃ h' : Host.St, run e 0 (aam v) h = .next 0 h' ∧ h'.r .rcx = e.ctx ∧ Adjusted h.g h'.g ∧
      (rdG h'.g .b lowAcc).toNat = (rdG h.g .b lowAcc).toNat % v.toNat ∧ (rdG h'.g .b highAcc).toNat = (rdG h.g .b lowAcc).toNat / v.toNat ∧ AlFlags h'.g := by
  have hr := aam_run hc v hv
  obtain ⟨t, ht, p1, p2, p3, p4, p5⟩ := (Flags.C60_aam (bcdOf h.g) hf v).2 hv
  rw [ht] at hr
  obtain ⟨h', r, c, u, hu, g⟩ := hr
  cases hu
  obtain ⟨q1, q2⟩ := bcd_parts h.g t
  have he : t.fl.eflags = h.g.fl.eflags := by
    unfold Flags.aamOp at ht
    rw [if_neg hv] at ht
    cases ht
    rfl
  refine ⟨h', r, c, by rw [g]; exact bcdTo_adj _ _ he, by rw [g, q1]; exact p1, by rw [g, q2]; exact p2, ?_⟩
  unfold AlFlags
  rw [g, q1]
  exact ⟨p3, p4, p5⟩

/-- C102, DAA (`sum`) and DAS: AL, AF and CF by the manual's table, SF, ZF and PF from AL. -/
theorem C102_daa_das {e : Env} {h : Host.St} (hc : h.r .rcx = e.ctx) (hf : Flags.Clean h.g.fl) (sum : Bool) :
    let t := (if sum then Flags.daaTab else Flags.dasTab) (rdG h.g .b lowAcc) (Flags.flags h.g.fl).af (Flags.flags h.g.fl).cf
    ∃ h' : Host.St, run e 0 (daaDas sum) h = .next 0 h' ∧ h'.r .rcx = e.ctx ∧ Adjusted h.g h'.g ∧ rdG h'.g .b lowAcc = t.1 ∧ rdG h'.g .b highAcc = rdG h.g .b highAcc ∧
      (Flags.flags h'.g.fl).af = t.2.1 ∧ (Flags.flags h'.g.fl).cf = t.2.2 ∧ AlFlags h'.g := by
  obtain ⟨h', r, c, g⟩ := daaDas_run hc sum
  cases sum
  · obtain ⟨⟨p1, p2, p3, p4, p5, p6⟩, p7⟩ := Flags.C60_das (bcdOf h.g) hf
    obtain ⟨q1, q2⟩ := bcd_parts h.g (Flags.dasOp (bcdOf h.g))
    have g' : h'.g = bcdTo h.g (Flags.dasOp (bcdOf h.g)) := g
    refine ⟨h', r, c, by rw [g']; exact bcdTo_adj _ _ (by rw [Flags.dasOp_core _ hf]; rfl), by rw [g', q1]; exact p1, by rw [g', q2]; exact p7, by rw [g']; exact p2, by rw [g']; exact p3, ?_⟩
    unfold AlFlags
    rw [g', q1, p1]
    exact ⟨p4, p5, p6⟩
  · obtain ⟨⟨p1, p2, p3, p4, p5, p6⟩, p7⟩ := Flags.C60_daa (bcdOf h.g) hf
    obtain ⟨q1, q2⟩ := bcd_parts h.g (Flags.daaOp (bcdOf h.g))
    have g' : h'.g = bcdTo h.g (Flags.daaOp (bcdOf h.g)) := g
    refine ⟨h', r, c, by rw [g']; exact bcdTo_adj _ _ (by rw [Flags.daaOp_core _ hf]; rfl), by rw [g', q1]; exact p1, by rw [g', q2]; exact p7, by rw [g']; exact p2, by rw [g']; exact p3, ?_⟩
    unfold AlFlags
    rw [g', q1, p1]
    exact ⟨p4, p5, p6⟩

/-! Non-trivial cases. -/

-- LAHF of the flags of exSt (PF, CF and OF) and SAHF back of AH = 2
example : exOut (run exEnv 0 lahf exSt) 0 0 = some (0x7FF#32, 0x80#8, 0x807#32) := by decide +kernel
example : exOut (run exEnv 0 sahf exSt) 0 0 = some (0x2FF#32, 0x80#8, 0x802#32) := by decide +kernel
-- BTR AX, BX with BX = 1: bit 1 was set; BTS word [0x2000], 24 sets bit 8; at 0x3000 BT is allowed, BTC faults
example : exOut (run exEnv 0 (bit 2 .w (.reg ⟨3, false⟩) (.reg ⟨0, false⟩)) exSt) 0 0 = some (0x2FD#32, 0x80#8, 0x807#32) := by decide +kernel
example : exOut (run exEnv 0 (bit 3 .w (.imm 24#64) (.mem (exEa 0x2000#32))) exSt) 0 0x2001#32 = some (0x2FF#32, 0x81#8, 0x6#32) := by decide +kernel
example : exOut (run exEnv 0 (bit 0 .d (.imm 7#64) (.mem (exEa 0x3000#32))) exSt) 0 0x3000#32 = some (0x2FF#32, 0x80#8, 0x807#32) := by decide +kernel
example : exOut (run exEnv 0 (bit 1 .d (.imm 7#64) (.mem (exEa 0x3000#32))) exSt) 0 0x3000#32 = none := by decide +kernel
-- PUSHFD and POPFD at CPL 0 with a 16 bit stack
/-- A state with a stack. -/
def exFl : Host.St := { exSt with g := { exSt.g with gpr := fun i => if i = 4 then 0xABCD0100#32 else 0x305#32, fl := ⟨0x90302#32, 0x100#32, 0x80000000#32⟩ } }
example : exOut (run exEnv 0 (pushf ⟨false, false⟩ .d false) exFl) 4 0x20FD#32 = some (0xABCD00FC#32, 0x0B#8, 0x90B07#32) ∧ Flags.Ok exFl.g.fl := by
  refine ⟨by decide +kernel, by unfold Flags.Clean; decide, by decide⟩
example : exOut (run exEnv 0 (pushf ⟨false, false⟩ .w true) exFl) 4 0x20FF#32 = some (0xABCD00FE#32, 0x3B#8, 0x90B07#32) := by decide +kernel
example : exOut (run exEnv 0 (popf ⟨false, false⟩ .d (Flags.popfMask 0#32 0#32 true)) exFl) 4 0 = some (0xABCD0104#32, 0x80#8, 0x90082#32) := by decide +kernel
-- POPF with the mode extensions: the word 0x8080 clears VIF; with VIP and IF set it is refused
example : exOut (popfVme exEnv ⟨false, false⟩ exFl) 4 0 = some (0xABCD0102#32, 0x80#8, 0x10282#32) ∧
    ¬ vmeRefuses exFl.g.fl.eflags (BitVec.ofNat 32 (load exFl.g.mem (slot exEnv (spOff ⟨false, false⟩ exFl.g)) 2)) := by
  refine ⟨by decide +kernel, ?_⟩
  unfold vmeRefuses
  decide +kernel
-- DIV BL with AX = 0x305, BL = 5 and a divide error with BL = 3
example : exOut (run exEnv 0 (div false .b 0#64 (.reg ⟨3, false⟩)) exFl) 0 0 = some (0x39A#32, 0x80#8, 0x90B07#32) := by decide +kernel
example : (match run exEnv 0 (div false .b 0#64 (.reg ⟨3, true⟩)) exFl with | .next 0 h => some (h.g.gpr 0) | _ => none) = some 0x305#32 := by decide +kernel
-- AAA with AX = 0x2FF, DAA and DAS with AL = 0xFF, AAM and AAD
example : exOut (run exEnv 0 aaa exSt) 0 0 = some (0x405#32, 0x80#8, 0x817#32) := by decide +kernel
example : exOut (run exEnv 0 aas exSt) 0 0 = some (0x109#32, 0x80#8, 0x817#32) := by decide +kernel
example : exOut (run exEnv 0 (daaDas true) exSt) 0 0 = some (0x265#32, 0x80#8, 0x817#32) := by decide +kernel
example : exOut (run exEnv 0 (daaDas false) exSt) 0 0 = some (0x299#32, 0x80#8, 0x897#32) := by decide +kernel
example : exOut (run exEnv 0 (aam 10#8) exSt) 0 0 = some (0x1905#32, 0x80#8, 0x6#32) := by decide +kernel
example : exOut (run exEnv 0 (aad 10#8) exSt) 0 0 = some (0x13#32, 0x80#8, 0x2#32) := by decide +kernel

end Verif.Emit
