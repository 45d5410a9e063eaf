import Verif.Model.Bcd
import Verif.Props.Flags
/-
C60: decimal adjust instructions compute decimal arithmetic.
-/
namespace Verif.Flags
open Spec

/-- Packed decimal: the byte that shows the two decimal digits of `n` (n < 100). -/
def bcd (n : Nat) : BitVec 8 := BitVec.ofNat 8 (n / 10 * 16 + n % 10)

/-- Table form of DAA on (AL, AF, CF): new AL, new AF, new CF. -/
def daaTab (al : BitVec 8) (af cf : Bool) : BitVec 8 × Bool × Bool :=
  let lo := decide (9 < (al &&& 0xF#8).toNat) || af
  let hi := decide (0x99 < al.toNat) || cf
  (al + (if lo then 6#8 else 0#8) + (if hi then 0x60#8 else 0#8), lo, hi)

/-- Table form of DAS on (AL, AF, CF): new AL, new AF, new CF. -/
def dasTab (al : BitVec 8) (af cf : Bool) : BitVec 8 × Bool × Bool :=
  let lo := decide (9 < (al &&& 0xF#8).toNat) || af
  let hi := decide (0x99 < al.toNat) || cf
  (al - (if lo then 6#8 else 0#8) - (if hi then 0x60#8 else 0#8), lo,
   hi || (lo && (cf || decide (al.toNat < 6))))

theorem ldAf_ne {s : St} (h : Clean s) : (ldAf s ≠ 0#32) ↔ (flags s).af = true := by
  rw [flags_eq h]
  unfold ldAf
  rw [show (8#32) = BitVec.twoPow 32 3 by decide, Ne, Bits.and_eq_zero 3 rfl (by omega)]
  simp

theorem ldCf_ne {s : St} (h : Clean s) : (ldCf s ≠ 0#32) ↔ (flags s).cf = true := by
  rw [flags_eq h]
  unfold ldCf
  rw [show (0x80000000#32) = BitVec.twoPow 32 31 by decide, Ne, Bits.and_eq_zero 31 rfl (by omega)]
  simp

/-- DAA as a function of AL, AF and CF: the new AL and the new auxiliary word. -/
def daaCore (old : BitVec 8) (af cf : Bool) : BitVec 8 × BitVec 32 :=
  let c : BitVec 32 := if cf then 0x80000000#32 else 0#32
  let p : BitVec 8 × BitVec 32 :=
    if 9 < (old &&& 0xF#8).toNat ∨ af = true then
      (old + 6#8, ((placeAux (sumVec old 6#8 (old + 6#8)) &&& 0x80000000#32) ||| c) ||| 8#32)
    else (old, 0#32)
  if 0x99 < old.toNat ∨ cf = true then (p.1 + 0x60#8, p.2 ||| 0x80000000#32)
  else (p.1, p.2 &&& 0x7FFFFFFF#32)

/-- DAS as a function of AL, AF and CF. -/
def dasCore (old : BitVec 8) (af cf : Bool) : BitVec 8 × BitVec 32 :=
  let c : BitVec 32 := if cf then 0x80000000#32 else 0#32
  let p : BitVec 8 × BitVec 32 :=
    if 9 < (old &&& 0xF#8).toNat ∨ af = true then
      (old - 6#8, ((placeAux (subVec old 6#8 (old - 6#8)) &&& 0x80000000#32) ||| c) ||| 8#32)
    else (old, 0#32)
  if 0x99 < old.toNat ∨ cf = true then (p.1 - 0x60#8, p.2 ||| 0x80000000#32)
  else p

theorem ldCf_flags {s : St} (h : Clean s) : ldCf s = if (flags s).cf then 0x80000000#32 else 0#32 := by
  rw [ldCf_bits, flags_eq h]

theorem daaOp_core (s : BcdSt) (h : Clean s.fl) :
    daaOp s = { s with
      al := (daaCore s.al (flags s.fl).af (flags s.fl).cf).1
      fl := { s.fl with
        res := (daaCore s.al (flags s.fl).af (flags s.fl).cf).1.signExtend 32
        aux := (daaCore s.al (flags s.fl).af (flags s.fl).cf).2 } } := by
  unfold daaOp daaCore
  simp only [ldAf_ne h, ldCf_ne h]
  simp only [ldCf_flags h]

theorem dasOp_core (s : BcdSt) (h : Clean s.fl) :
    dasOp s = { s with
      al := (dasCore s.al (flags s.fl).af (flags s.fl).cf).1
      fl := { s.fl with
        res := (dasCore s.al (flags s.fl).af (flags s.fl).cf).1.signExtend 32
        aux := (dasCore s.al (flags s.fl).af (flags s.fl).cf).2 } } := by
  unfold dasOp dasCore
  simp only [ldAf_ne h, ldCf_ne h]
  simp only [ldCf_flags h]

/-- Over all AL, AF and CF. -/
theorem daaCore_tab : ∀ (al : BitVec 8) (af cf : Bool),
    (daaCore al af cf).1 = (daaTab al af cf).1 ∧
    (daaCore al af cf).2.getLsbD 3 = (daaTab al af cf).2.1 ∧
    (daaCore al af cf).2.getLsbD 31 = (daaTab al af cf).2.2 ∧
    (daaCore al af cf).2.getLsbD 0 = false ∧
    ((daaCore al af cf).2 >>> 8).setWidth 8 = 0#8 := by decide +kernel

/-- Over all AL, AF and CF. -/
theorem dasCore_tab : ∀ (al : BitVec 8) (af cf : Bool),
    (dasCore al af cf).1 = (dasTab al af cf).1 ∧
    (dasCore al af cf).2.getLsbD 3 = (dasTab al af cf).2.1 ∧
    (dasCore al af cf).2.getLsbD 31 = (dasTab al af cf).2.2 ∧
    (dasCore al af cf).2.getLsbD 0 = false ∧
    ((dasCore al af cf).2 >>> 8).setWidth 8 = 0#8 := by decide +kernel

theorem flags_adj {fl : St} (h : Clean fl) (al : BitVec 8) (aux : BitVec 32)
    (h0 : aux.getLsbD 0 = false) (hp : (aux >>> 8).setWidth 8 = 0#8) :
    flags { fl with res := al.signExtend 32, aux := aux } =
      { cf := aux.getLsbD 31, pf := parityEven al, af := aux.getLsbD 3, zf := decide (al = 0#8),
        sf := al.msb, of := aux.getLsbD 31 ^^ aux.getLsbD 30 } := by
  have hc : Clean { fl with res := al.signExtend 32, aux := aux } := h
  rw [flags_eq hc]
  have e : parIdx { fl with res := al.signExtend 32, aux := aux } = al := by
    unfold parIdx
    rw [BitVec.setWidth_xor, hp, sext_low (Or.inl rfl)]
    simp
  have e1 : al.setWidth 8 = al := by simp
  simp only [e, h0, sext_31 (Or.inl rfl), sext_zero (Or.inl rfl), parityEven_low, e1, Bool.xor_false]

/-- Sets AL, AF, CF, and SF, ZF, PF from the result (OF is undefined). -/
def AdjResult (t : BcdSt) (al : BitVec 8) (af cf : Bool) : Prop :=
  t.al = al ∧ (flags t.fl).af = af ∧ (flags t.fl).cf = cf ∧
  (flags t.fl).zf = decide (al = 0#8) ∧ (flags t.fl).sf = al.msb ∧ (flags t.fl).pf = parityEven al

/-- C60, DAA as a table: over every AL and every flag state. -/
theorem C60_daa (s : BcdSt) (h : Clean s.fl) :
    let t := daaTab s.al (flags s.fl).af (flags s.fl).cf
    AdjResult (daaOp s) t.1 t.2.1 t.2.2 ∧ (daaOp s).ah = s.ah := by
  intro t
  obtain ⟨e1, e2, e3, e4, e5⟩ := daaCore_tab s.al (flags s.fl).af (flags s.fl).cf
  rw [daaOp_core s h]
  refine ⟨⟨e1, ?_⟩, rfl⟩
  simp only [flags_adj h _ _ e4 e5, e2, e3, e1]
  exact ⟨rfl, rfl, rfl, rfl, rfl⟩

/-- C60, DAS as a table: over every AL and every flag state. -/
theorem C60_das (s : BcdSt) (h : Clean s.fl) :
    let t := dasTab s.al (flags s.fl).af (flags s.fl).cf
    AdjResult (dasOp s) t.1 t.2.1 t.2.2 ∧ (dasOp s).ah = s.ah := by
  intro t
  obtain ⟨e1, e2, e3, e4, e5⟩ := dasCore_tab s.al (flags s.fl).af (flags s.fl).cf
  rw [dasOp_core s h]
  refine ⟨⟨e1, ?_⟩, rfl⟩
  simp only [flags_adj h _ _ e4 e5, e2, e3, e1]
  exact ⟨rfl, rfl, rfl, rfl, rfl⟩

/-- All pairs of decimal numbers with and without carry. -/
theorem daa_decimal : ∀ (x y : Fin 100) (c : Bool),
    daaTab (bcd x.val + bcd y.val + (BitVec.ofBool c).setWidth 8)
      (addFlags (bcd x.val) (bcd y.val) c).af (addFlags (bcd x.val) (bcd y.val) c).cf =
    (bcd ((x.val + y.val + c.toNat) % 100), decide (10 ≤ x.val % 10 + y.val % 10 + c.toNat),
     decide (100 ≤ x.val + y.val + c.toNat)) := by decide +kernel

theorem das_decimal : ∀ (x y : Fin 100) (c : Bool),
    dasTab (bcd x.val - bcd y.val - (BitVec.ofBool c).setWidth 8)
      (subFlags (bcd x.val) (bcd y.val) c).af (subFlags (bcd x.val) (bcd y.val) c).cf =
    (bcd ((x.val + 100 - y.val - c.toNat) % 100), decide (x.val % 10 < y.val % 10 + c.toNat),
     decide (x.val < y.val + c.toNat)) := by decide +kernel

/-- C60: ADC (or ADD, with CF clear) of two packed decimal numbers followed by DAA leaves the packed
decimal sum in AL and the decimal carry in CF. -/
theorem C60_bcd_add (fl : St) (h : Clean fl) (ah : BitVec 8) (x y : Fin 100) :
    let r := adcOp fl (bcd x.val) (bcd y.val)
    let t := daaOp { al := r.1, ah := ah, fl := r.2 }
    t.al = bcd ((x.val + y.val + (flags fl).cf.toNat) % 100) ∧
    (flags t.fl).cf = decide (100 ≤ x.val + y.val + (flags fl).cf.toNat) := by
  intro r t
  have hr := C26_adc (Or.inl rfl) fl h (bcd x.val) (bcd y.val)
  have hc : Clean r.2 := h
  have hd := (C60_daa { al := r.1, ah := ah, fl := r.2 } hc).1
  rw [show flags r.2 = addFlags (bcd x.val) (bcd y.val) (flags fl).cf from hr.2,
    show r.1 = _ from hr.1] at hd
  rw [daa_decimal] at hd
  rw [← show r.1 = _ from hr.1] at hd
  exact ⟨hd.1, hd.2.2.1⟩

/-- C60: SBB (or SUB, with CF clear) of two packed decimal numbers followed by DAS leaves the packed
decimal difference modulo 100 in AL and the decimal borrow in CF. -/
theorem C60_bcd_sub (fl : St) (h : Clean fl) (ah : BitVec 8) (x y : Fin 100) :
    let r := sbbOp fl (bcd x.val) (bcd y.val)
    let t := dasOp { al := r.1, ah := ah, fl := r.2 }
    t.al = bcd ((x.val + 100 - y.val - (flags fl).cf.toNat) % 100) ∧
    (flags t.fl).cf = decide (x.val < y.val + (flags fl).cf.toNat) := by
  intro r t
  have hr := C26_sbb (Or.inl rfl) fl h (bcd x.val) (bcd y.val)
  have hc : Clean r.2 := h
  have hd := (C60_das { al := r.1, ah := ah, fl := r.2 } hc).1
  rw [show flags r.2 = subFlags (bcd x.val) (bcd y.val) (flags fl).cf from hr.2,
    show r.1 = _ from hr.1] at hd
  rw [das_decimal] at hd
  rw [← show r.1 = _ from hr.1] at hd
  exact ⟨hd.1, hd.2.2.1⟩

/-! AAA, AAS, AAD, AAM -/

theorem ax_toNat (s : BcdSt) : s.ax.toNat = s.ah.toNat * 256 + s.al.toNat := by
  unfold BcdSt.ax
  rw [BitVec.toNat_or, BitVec.toNat_shiftLeft, BitVec.toNat_setWidth, BitVec.toNat_setWidth]
  have h1 := s.ah.isLt
  have h2 := s.al.isLt
  rw [Nat.mod_eq_of_lt (by omega : s.ah.toNat < 2 ^ 16), Nat.mod_eq_of_lt (by omega : s.al.toNat < 2 ^ 16),
    Nat.shiftLeft_eq, Nat.mod_eq_of_lt (by omega), show s.ah.toNat * 2 ^ 8 = 2 ^ 8 * s.ah.toNat by omega,
    ← Nat.two_pow_add_eq_or_of_lt (by omega)]

theorem ax_low (s : BcdSt) : (s.ax &&& 0xF#16).setWidth 8 = s.al &&& 0xF#8 := by
  unfold BcdSt.ax; bits8

/-- What AAA does (SDM): if the low nibble of AL is above 9 or AF is set, AX := AX + 0x106 and AF and
CF are set, else both are cleared; then AL keeps its low nibble. -/
theorem C60_aaa (s : BcdSt) (h : Clean s.fl) :
    let adj := decide (9 < s.al.toNat % 16) || (flags s.fl).af
    (aaaOp s).al.toNat = (s.al.toNat + (if adj then 6 else 0)) % 16 ∧
    (aaaOp s).ah.toNat = ((s.ah.toNat * 256 + s.al.toNat + (if adj then 0x106 else 0)) / 256) % 256 ∧
    (flags (aaaOp s).fl).af = adj ∧ (flags (aaaOp s).fl).cf = adj ∧
    (aaaOp s).fl.eflags = s.fl.eflags := by
  intro adj
  have hlow : (s.al &&& 0xF#8).toNat = s.al.toNat % 16 := by
    rw [BitVec.toNat_and]; exact Nat.and_two_pow_sub_one_eq_mod _ 4
  have hc1 : Clean { s.fl with aux := 0x80000008#32 } := h
  have hc0 : Clean { s.fl with aux := 0#32 } := h
  have h1 := s.ah.isLt
  have h2 := s.al.isLt
  by_cases hcond : 9 < ((s.ax &&& 0xF#16).setWidth 8 : BitVec 8).toNat ∨ ldAf s.fl ≠ 0#32
  · have ha : adj = true := by
      rw [ax_low, hlow, ldAf_ne h] at hcond
      simp only [adj, Bool.or_eq_true, decide_eq_true_eq]
      exact hcond
    have e : aaaOp s = ⟨(s.ax + 0x106#16).setWidth 8 &&& 0xF#8,
        ((s.ax + 0x106#16) >>> 8).setWidth 8, { s.fl with aux := 0x80000008#32 }⟩ := by
      unfold aaaOp; exact if_pos hcond
    rw [e, ha, flags_eq hc1]
    refine ⟨?_, ?_, by simp, by simp, rfl⟩
    · rw [BitVec.toNat_and, show (0xF#8).toNat = 2 ^ 4 - 1 by rfl, Nat.and_two_pow_sub_one_eq_mod,
        BitVec.toNat_setWidth, BitVec.toNat_add, ax_toNat]
      simp; omega
    · rw [BitVec.toNat_setWidth, BitVec.toNat_ushiftRight, BitVec.toNat_add, ax_toNat, Nat.shiftRight_eq_div_pow]
      simp; omega
  · have ha : adj = false := by
      rw [ax_low, hlow, ldAf_ne h] at hcond
      simp only [adj, Bool.or_eq_false_iff, decide_eq_false_iff_not]
      grind
    have e : aaaOp s = ⟨(s.ax &&& 0xF#16).setWidth 8, s.ah, { s.fl with aux := 0#32 }⟩ := by
      unfold aaaOp; exact if_neg hcond
    rw [e, ha, flags_eq hc0]
    refine ⟨?_, ?_, by simp, by simp, rfl⟩
    · simp only [ax_low, hlow]; simp
    · simp; omega

/-- C60: adding two unpacked decimal digits and adjusting leaves the digit of the sum in AL, adds the
carry to AH, and sets CF iff the sum has two digits. -/
theorem C60_unpacked_add (fl : St) (h : Clean fl) (ah : BitVec 8) (x y : Nat) (hx : x < 10) (hy : y < 10) :
    let r := addOp fl (BitVec.ofNat 8 x) (BitVec.ofNat 8 y)
    let t := aaaOp { al := r.1, ah := ah, fl := r.2 }
    t.al.toNat = (x + y) % 10 ∧ t.ah.toNat = (ah.toNat + (x + y) / 10) % 256 ∧
    (flags t.fl).cf = decide (10 ≤ x + y) := by
  intro r t
  have hr := C26_add (Or.inl rfl) fl h (BitVec.ofNat 8 x) (BitVec.ofNat 8 y)
  have hc : Clean r.2 := h
  obtain ⟨d1, d2, _, d4, _⟩ := C60_aaa { al := r.1, ah := ah, fl := r.2 } hc
  have haf : (flags r.2).af = decide (16 ≤ x + y) := by
    rw [show flags r.2 = _ from hr.2]
    unfold addFlags
    simp only [BitVec.toNat_ofNat, Bool.toNat_false, Nat.add_zero, decide_eq_decide]
    omega
  have hal : r.1.toNat = x + y := by
    rw [show r.1 = _ from hr.1, BitVec.toNat_add, BitVec.toNat_ofNat, BitVec.toNat_ofNat]; omega
  have hadj : (decide (9 < r.1.toNat % 16) || (flags r.2).af) = decide (10 ≤ x + y) := by
    rw [haf, hal, Bool.eq_iff_iff]; simp; omega
  simp only [hadj] at d1 d2 d4
  simp only [hal] at d1 d2
  have hah := ah.isLt
  by_cases h10 : 10 ≤ x + y
  · simp only [h10, decide_true, if_true] at d1 d2 d4 ⊢
    exact ⟨by rw [show t.al.toNat = _ from d1]; omega, by rw [show t.ah.toNat = _ from d2]; omega, d4⟩
  · simp only [h10, decide_false, if_false, Bool.false_eq_true] at d1 d2 d4 ⊢
    exact ⟨by rw [show t.al.toNat = _ from d1]; omega, by rw [show t.ah.toNat = _ from d2]; omega, d4⟩

/-- What AAS does (SDM): if the low nibble of AL is above 9 or AF is set, AX := AX - 6, AH := AH - 1
and AF and CF are set, else both are cleared; then AL keeps its low nibble. -/
theorem C60_aas (s : BcdSt) (h : Clean s.fl) :
    let adj := decide (9 < s.al.toNat % 16) || (flags s.fl).af
    let ax := s.ah.toNat * 256 + s.al.toNat
    (aasOp s).al.toNat = (if adj then (ax + 65536 - 6) % 16 else ax % 16) ∧
    (aasOp s).ah.toNat = (if adj then ((ax + 65536 - 6) / 256 + 255) % 256 else s.ah.toNat) ∧
    (flags (aasOp s).fl).af = adj ∧ (flags (aasOp s).fl).cf = adj ∧
    (aasOp s).fl.eflags = s.fl.eflags := by
  intro adj ax
  have hlow : (s.al &&& 0xF#8).toNat = s.al.toNat % 16 := by
    rw [BitVec.toNat_and]; exact Nat.and_two_pow_sub_one_eq_mod _ 4
  have hc1 : Clean { s.fl with aux := 0x80000008#32 } := h
  have hc0 : Clean { s.fl with aux := 0#32 } := h
  have h1 := s.ah.isLt
  have h2 := s.al.isLt
  by_cases hcond : 9 < ((s.ax &&& 0xF#16).setWidth 8 : BitVec 8).toNat ∨ ldAf s.fl ≠ 0#32
  · have ha : adj = true := by
      rw [ax_low, hlow, ldAf_ne h] at hcond
      simp only [adj, Bool.or_eq_true, decide_eq_true_eq]
      exact hcond
    generalize hb : s.ax + 0xFFFA#16 = bx
    have hbx : bx.toNat = (s.ah.toNat * 256 + s.al.toNat + 65530) % 65536 := by
      rw [← hb, BitVec.toNat_add, ax_toNat]; rfl
    have e : aasOp s = ⟨((((((bx >>> 8).setWidth 8 : BitVec 8) - 1#8).setWidth 16 <<< 8) |||
          (bx &&& 0xFF#16)).setWidth 8 : BitVec 8) &&& 0xF#8,
        ((((((bx >>> 8).setWidth 8 : BitVec 8) - 1#8).setWidth 16 <<< 8) ||| (bx &&& 0xFF#16)) >>> 8).setWidth 8,
        { s.fl with aux := 0x80000008#32 }⟩ := by
      rw [← hb]; unfold aasOp; exact if_pos hcond
    have el : ((((((bx >>> 8).setWidth 8 : BitVec 8) - 1#8).setWidth 16 <<< 8) |||
          (bx &&& 0xFF#16)).setWidth 8 : BitVec 8) &&& 0xF#8 = (bx.setWidth 8 : BitVec 8) &&& 0xF#8 := by
      generalize ((bx >>> 8).setWidth 8 : BitVec 8) - 1#8 = y
      bits8
    have eh : (((((((bx >>> 8).setWidth 8 : BitVec 8) - 1#8).setWidth 16 <<< 8) ||| (bx &&& 0xFF#16)) >>> 8).setWidth 8 :
        BitVec 8) = (((bx >>> 8).setWidth 8 : BitVec 8) - 1#8) := by
      generalize ((bx >>> 8).setWidth 8 : BitVec 8) - 1#8 = y
      bits8
    rw [e, ha, flags_eq hc1, el, eh]
    refine ⟨?_, ?_, by simp, by simp, rfl⟩
    · rw [BitVec.toNat_and, show (0xF#8).toNat = 2 ^ 4 - 1 by rfl, Nat.and_two_pow_sub_one_eq_mod,
        BitVec.toNat_setWidth, hbx]
      simp only [if_true, ax]; omega
    · rw [BitVec.toNat_sub, BitVec.toNat_setWidth, BitVec.toNat_ushiftRight, Nat.shiftRight_eq_div_pow, hbx]
      simp only [if_true, ax, BitVec.toNat_ofNat]; omega
  · have ha : adj = false := by
      rw [ax_low, hlow, ldAf_ne h] at hcond
      simp only [adj, Bool.or_eq_false_iff, decide_eq_false_iff_not]
      grind
    have e : aasOp s = ⟨(s.ax &&& 0xF#16).setWidth 8, s.ah, { s.fl with aux := 0#32 }⟩ := by
      unfold aasOp; exact if_neg hcond
    rw [e, ha, flags_eq hc0]
    refine ⟨?_, by simp, by simp, by simp, rfl⟩
    simp only [ax_low, hlow, ax]; simp; omega

/-- C60: subtracting two unpacked decimal digits and adjusting leaves the digit of the difference in
AL, takes the borrow from AH, and sets CF iff there is a borrow. -/
theorem C60_unpacked_sub (fl : St) (h : Clean fl) (ah : BitVec 8) (x y : Nat) (hx : x < 10) (hy : y < 10) :
    let r := subOp fl (BitVec.ofNat 8 x) (BitVec.ofNat 8 y)
    let t := aasOp { al := r.1, ah := ah, fl := r.2 }
    t.al.toNat = (x + 10 - y) % 10 ∧ t.ah.toNat = (ah.toNat + 256 - (if x < y then 1 else 0)) % 256 ∧
    (flags t.fl).cf = decide (x < y) := by
  intro r t
  have hr := C26_sub (Or.inl rfl) fl h (BitVec.ofNat 8 x) (BitVec.ofNat 8 y)
  have hc : Clean r.2 := h
  obtain ⟨d1, d2, _, d4, _⟩ := C60_aas { al := r.1, ah := ah, fl := r.2 } hc
  have haf : (flags r.2).af = decide (x < y) := by
    rw [show flags r.2 = _ from hr.2]
    unfold subFlags
    simp only [BitVec.toNat_ofNat, Bool.toNat_false, Nat.add_zero, decide_eq_decide]
    omega
  have hal : r.1.toNat = (256 - y + x) % 256 := by
    rw [show r.1 = _ from hr.1, BitVec.toNat_sub, BitVec.toNat_ofNat, BitVec.toNat_ofNat]; omega
  have hadj : (decide (9 < r.1.toNat % 16) || (flags r.2).af) = decide (x < y) := by
    rw [haf, hal, Bool.eq_iff_iff]; simp; omega
  simp only [hadj] at d1 d2 d4
  simp only [hal] at d1 d2
  have hah := ah.isLt
  by_cases hlt : x < y
  · simp only [hlt, decide_true, if_true] at d1 d2 d4 ⊢
    exact ⟨by rw [show t.al.toNat = _ from d1]; omega, by rw [show t.ah.toNat = _ from d2]; omega, d4⟩
  · simp only [hlt, decide_false, if_false, Bool.false_eq_true] at d1 d2 d4 ⊢
    exact ⟨by rw [show t.al.toNat = _ from d1]; omega, by rw [show t.ah.toNat = _ from d2]; omega, d4⟩

/-- C60, AAM: quotient and remainder of AL by the immediate, or the divide exception for zero. -/
theorem C60_aam (s : BcdSt) (h : Clean s.fl) (imm : BitVec 8) :
    (imm = 0#8 → aamOp s imm = none) ∧
    (imm ≠ 0#8 → ∃ t, aamOp s imm = some t ∧ t.al.toNat = s.al.toNat % imm.toNat ∧
      t.ah.toNat = s.al.toNat / imm.toNat ∧ (flags t.fl).zf = decide (t.al = 0#8) ∧
      (flags t.fl).sf = t.al.msb ∧ (flags t.fl).pf = parityEven t.al) := by
  refine ⟨fun e => by unfold aamOp; exact if_pos e, fun e => ?_⟩
  refine ⟨_, by unfold aamOp; exact if_neg e, ?_⟩
  have h1 := s.al.isLt
  have h2 := imm.isLt
  have hpos : 0 < imm.toNat := by
    rcases Nat.eq_zero_or_pos imm.toNat with hz | hz
    · exact absurd (by rw [← BitVec.toNat_inj]; simpa using hz) e
    · exact hz
  have hm : s.al.toNat % imm.toNat < 256 := Nat.lt_of_lt_of_le (Nat.mod_lt _ hpos) (by omega)
  have hd : s.al.toNat / imm.toNat < 256 := Nat.lt_of_le_of_lt (Nat.div_le_self _ _) h1
  refine ⟨?_, ?_, ?_⟩
  · simp only [BitVec.toNat_setWidth, BitVec.toNat_umod]
    rw [Nat.mod_eq_of_lt (by omega : s.al.toNat < 2 ^ 32), Nat.mod_eq_of_lt (by omega : imm.toNat < 2 ^ 32)]
    omega
  · simp only [BitVec.toNat_setWidth, BitVec.toNat_udiv]
    rw [Nat.mod_eq_of_lt (by omega : s.al.toNat < 2 ^ 32), Nat.mod_eq_of_lt (by omega : imm.toNat < 2 ^ 32)]
    exact Nat.mod_eq_of_lt hd
  · rw [flags_adj h _ 0#32 (by simp) (by simp)]
    exact ⟨rfl, rfl, rfl⟩

/-- C60, AAD: AL := AL + AH * imm, AH := 0. -/
theorem C60_aad (s : BcdSt) (h : Clean s.fl) (imm : BitVec 8) :
    (aadOp s imm).al.toNat = (s.al.toNat + s.ah.toNat * imm.toNat) % 256 ∧ (aadOp s imm).ah = 0#8 ∧
    (flags (aadOp s imm).fl).zf = decide ((aadOp s imm).al = 0#8) ∧
    (flags (aadOp s imm).fl).sf = (aadOp s imm).al.msb ∧
    (flags (aadOp s imm).fl).pf = parityEven (aadOp s imm).al := by
  refine ⟨?_, rfl, ?_⟩
  · have h1 := s.ah.isLt
    have h2 := imm.isLt
    have hp : s.ah.toNat * imm.toNat < 256 * 256 := Nat.mul_lt_mul'' h1 h2
    simp only [aadOp, BitVec.toNat_add, BitVec.toNat_setWidth, BitVec.toNat_mul]
    rw [Nat.mod_eq_of_lt (by omega : s.ah.toNat < 2 ^ 32), Nat.mod_eq_of_lt (by omega : imm.toNat < 2 ^ 32)]
    omega
  · unfold aadOp
    rw [flags_adj h _ 0#32 (by simp) (by simp)]
    exact ⟨rfl, rfl, rfl⟩

/-- C60: AAD undoes AAM (for every base), so splitting and joining digits is lossless. -/
theorem C60_aam_aad (s : BcdSt) (imm : BitVec 8) (t : BcdSt) (h : Clean s.fl)
    (ht : aamOp s imm = some t) : (aadOp t imm).al = s.al := by
  have hne : imm ≠ 0#8 := by
    intro e; rw [(C60_aam s h imm).1 e] at ht; exact absurd ht (by simp)
  obtain ⟨u, hu, h1, h2, _⟩ := (C60_aam s h imm).2 hne
  rw [hu] at ht
  obtain rfl := Option.some.inj ht
  have hc : Clean u.fl := by
    have : aamOp s imm = some u := hu
    unfold aamOp at this
    rw [if_neg hne] at this
    obtain rfl := Option.some.inj this
    exact h
  rw [← BitVec.toNat_inj, (C60_aad u hc imm).1, h1, h2, Nat.mul_comm, Nat.mod_add_div]
  exact Nat.mod_eq_of_lt s.al.isLt

example : (daaOp ⟨0x9F#8, 0#8, ⟨2#32, 0x100#32, 0#32⟩⟩).al = 0x05#8 := by decide +kernel
example : (flags (dasOp ⟨0x03#8, 0#8, ⟨2#32, 0x100#32, 8#32⟩⟩).fl).cf = true := by decide +kernel
example : (aasOp ⟨0xFE#8, 5#8, ⟨2#32, 0x100#32, 8#32⟩⟩).al = 8#8 := by decide +kernel
example : (aaaOp ⟨0x0B#8, 0#8, ⟨2#32, 0x100#32, 0#32⟩⟩).al = 1#8 := by decide +kernel

end Verif.Flags
