import Verif.Lemmas.EmitMore
import Verif.Spec.EmitMore
import Verif.Props.Emit
import Verif.Props.FlagInstr
/-!
C84: the emitted host code of multiplications, sign and zero extensions and BSWAP.
-/
namespace Verif.Emit
open Host Guest Spec
open Flags (Clean flags Width)

theorem product_eq {n : Nat} (sg : Bool) (a b : BitVec n) : product sg a b = BitVec.ofInt 64 (prod sg a b) := by
  unfold product prod
  cases sg with
  | false =>
    simp only [Bool.false_eq_true, if_false]
    rw [BitVec.ofInt_mul]
    have (v : BitVec n) : BitVec.setWidth 64 v = BitVec.ofInt 64 (v.toNat : Int) := by
      rw [BitVec.ofInt_natCast]; exact (BitVec.eq_of_toNat_eq (by rw [BitVec.toNat_setWidth, BitVec.toNat_ofNat]))
    rw [this, this]
  | true =>
    simp only [if_true]
    rw [BitVec.ofInt_mul]
    rfl

theorem low_eq {n : Nat} (hn : Width n) (p : Int) : (BitVec.ofInt 64 p).setWidth n = BitVec.ofInt n p := by
  apply BitVec.eq_of_toNat_eq
  rw [BitVec.toNat_setWidth, BitVec.toNat_ofInt, BitVec.toNat_ofInt]
  rcases hn with rfl | rfl | rfl <;> omega

theorem high_eq {n : Nat} (hn : Width n) (p : Int) : (BitVec.ofInt 64 p >>> n).setWidth n = BitVec.ofInt n (p / 2 ^ n) := by
  apply BitVec.eq_of_toNat_eq
  rw [BitVec.toNat_setWidth, BitVec.toNat_ushiftRight, BitVec.toNat_ofInt, BitVec.toNat_ofInt, Nat.shiftRight_eq_div_pow]
  rcases hn with rfl | rfl | rfl <;> omega

theorem low16_eq (p : Int) : (BitVec.ofInt 64 p).setWidth 16 = BitVec.ofInt 16 p := low_eq (by unfold Width; omega) p

/-- Bounds of a product. -/
theorem prod_bound {n : Nat} (hn : Width n) (sg : Bool) (a b : BitVec n) :
    if sg then -(2 : Int) ^ 63 ≤ prod sg a b ∧ prod sg a b < (2 : Int) ^ 63 else 0 ≤ prod sg a b ∧ prod sg a b < (2 : Int) ^ 64 := by
  unfold prod
  cases sg with
  | false =>
    simp only [Bool.false_eq_true, if_false]
    have h1 := a.isLt
    have h2 := b.isLt
    have h3 : a.toNat * b.toNat ≤ (2 ^ n - 1) * (2 ^ n - 1) := Nat.mul_le_mul (by omega) (by omega)
    have h4 : (2 ^ n - 1) * (2 ^ n - 1) < 2 ^ 64 := by rcases hn with rfl | rfl | rfl <;> decide
    constructor
    · exact Int.mul_nonneg (by omega) (by omega)
    · have : ((a.toNat * b.toNat : Nat) : Int) < ((2 ^ 64 : Nat) : Int) := by omega
      rw [Int.natCast_mul] at this
      exact this
  | true =>
    simp only [if_true]
    have h1 := BitVec.toInt_lt (x := a)
    have h2 := BitVec.le_toInt a
    have h3 := BitVec.toInt_lt (x := b)
    have h4 := BitVec.le_toInt b
    have e1 : a.toInt.natAbs ≤ 2 ^ 31 := by rcases hn with rfl | rfl | rfl <;> omega
    have e2 : b.toInt.natAbs ≤ 2 ^ 31 := by rcases hn with rfl | rfl | rfl <;> omega
    have e3 : (a.toInt * b.toInt).natAbs ≤ 2 ^ 31 * 2 ^ 31 := by
      rw [Int.natAbs_mul]; exact Nat.mul_le_mul e1 e2
    omega

theorem overflows_eq {n : Nat} (hn : Width n) (sg : Bool) (a b : BitVec n) :
    overflows sg n (BitVec.ofInt 64 (prod sg a b)) = true ↔ ¬ fits sg n (prod sg a b) := by
  have hb := prod_bound hn sg a b
  generalize prod sg a b = p at hb
  unfold overflows fits
  cases sg with
  | false =>
    simp only [Bool.false_eq_true, if_false] at hb ⊢
    rw [bne_iff_ne, ne_eq, Decidable.not_iff_not, ← BitVec.toNat_inj, BitVec.toNat_ushiftRight, BitVec.toNat_ofInt, Nat.shiftRight_eq_div_pow]
    rcases hn with rfl | rfl | rfl <;> simp only [BitVec.ofNat_eq_ofNat, BitVec.toNat_ofNat] <;> omega
  | true =>
    simp only [if_true] at hb ⊢
    rw [bne_iff_ne, ne_eq, Decidable.not_iff_not, low_eq hn, ← BitVec.toInt_inj, BitVec.toInt_signExtend_of_le (by rcases hn with rfl | rfl | rfl <;> omega),
      BitVec.toInt_ofInt, BitVec.toInt_ofInt]
    rcases hn with rfl | rfl | rfl <;> simp only [Int.bmod_def] <;> omega

/-- The guest's flags after the tail of a multiplication. -/
def mulFl (s : Flags.St) (v : Bool) : Flags.St := { s with aux := if v then 0x80000000#32 else 0#32 }

theorem mulFl_spec (s : Flags.St) (h : Clean s) (v : Bool) : (flags (mulFl s v)).cf = v ∧ (flags (mulFl s v)).of = v := by
  have hc : Clean (mulFl s v) := h
  rw [Flags.flags_eq hc]
  cases v <;> simp [mulFl]

theorem mulFlags_run {e : Env} {h : St} (hc : h.r .rcx = e.ctx) {v : Bool} (h1 : h.cf = v) (h2 : h.of = v) :
    Ends e mulFlags h { h.g with fl := mulFl h.g.fl v } := by
  unfold Ends mulFlags
  hexec' [hc]
  refine ⟨_, rfl, ?_⟩
  hexec' [hc, h1, h2]
  refine ⟨?_, trivial⟩
  cases v <;> rfl

theorem mul1_run {z : Sz} (hz : z ≠ .q) (sg : Bool) {e : Env} {h : St} (hc : h.r .rcx = e.ctx) :
    Ends e ([.mul1 sg z .rbx] ++ (if z = .b then [.stG .w acc .rax] else [.stG z acc .rax, .stG z edx .rdx]) ++ mulFlags) h
      { setWide h.g z (prod sg (rd h z .rax) (rd h z .rbx)) with
        fl := mulFl h.g.fl (overflows sg z.bits (BitVec.ofInt 64 (prod sg (rd h z .rax) (rd h z .rbx)))) } := by
  have hw := width hz
  have hp := product_eq sg (rd h z .rax) (rd h z .rbx)
  have run1 : ∃ h1, run e 0 ([.mul1 sg z .rbx] ++ (if z = .b then [.stG .w acc .rax] else [.stG z acc .rax, .stG z edx .rdx])) h = .next 0 h1 ∧
      h1.g = setWide h.g z (prod sg (rd h z .rax) (rd h z .rbx)) ∧ h1.r .rcx = e.ctx ∧
      h1.cf = overflows sg z.bits (BitVec.ofInt 64 (prod sg (rd h z .rax) (rd h z .rbx))) ∧ h1.of = h1.cf := by
    generalize prod sg (rd h z .rax) (rd h z .rbx) = p at hp
    by_cases hb : z = .b
    · subst hb
      unfold setWide
      simp only [if_true, ← low16_eq p]
      hexec' [hc]
      refine ⟨_, rfl, ?_⟩
      hexec' [hc, hp]
      exact ⟨rfl, trivial, trivial, trivial⟩
    · unfold setWide
      simp only [if_neg hb]
      rw [← high_eq hw, ← low_eq hw p]
      have hs : step e h (.mul1 sg z .rbx) = .next 0 ((wr (wr h z .rax ((BitVec.ofInt 64 p).setWidth z.bits)) z .rdx ((BitVec.ofInt 64 p >>> z.bits).setWidth z.bits)).setF
          (e.hf h .zf) (overflows sg z.bits (BitVec.ofInt 64 p)) (overflows sg z.bits (BitVec.ofInt 64 p)) (e.hf h .sf)) := by
        rw [← hp]
        cases z <;> first | exact absurd rfl hz | exact absurd rfl hb | rfl
      show ∃ h1, run e 0 (.mul1 sg z .rbx :: [.stG z acc .rax, .stG z edx .rdx]) h = .next 0 h1 ∧ _
      unfold run
      rw [hs]
      hexec' [hc]
      refine ⟨_, rfl, ?_⟩
      hexec' [hc]
      exact ⟨rfl, trivial, trivial, trivial⟩
  obtain ⟨h1, r1, g1, c1, v1, v2⟩ := run1
  have := mulFlags_run c1 v1 (v2.trans v1)
  rw [g1] at this
  have hf : (setWide h.g z (prod sg (rd h z .rax) (rd h z .rbx))).fl = h.g.fl := by
    unfold setWide; split <;> rfl
  rw [hf] at this
  exact ends_append r1 this

theorem ldRm_run {z : Sz} {e : Env} {h : St} (hc : h.r .rcx = e.ctx) (rm : Rm) (hk : (ofRm rm).ok e z false = true) :
    ∃ h1, run e 0 (ldRm z rm) h = .next 0 h1 ∧ h1.g = h.g ∧ h1.r .rcx = e.ctx ∧ rd h1 z .rax = (ofRm rm).get h.g z ∧
      h1.r .rbx = h.r .rbx := by
  cases rm with
  | reg r =>
    unfold ldRm
    hexec' [hc]
    refine ⟨_, rfl, ?_⟩
    hexec' [hc]
    exact ⟨trivial, trivial, rfl, trivial⟩
  | mem a =>
    unfold ldRm
    have hk' : e.ok a z.bytes false = true := hk
    hexec' [hc, hk']
    refine ⟨_, rfl, ?_⟩
    hexec' [hc]
    exact ⟨trivial, trivial, rfl, trivial⟩

theorem ldRm_fault {z : Sz} {e : Env} {h : St} (hc : h.r .rcx = e.ctx) (rm : Rm) (hk : (ofRm rm).ok e z false = false) :
    run e 0 (ldRm z rm) h = .fault h.g := by
  cases rm with
  | reg r => exact absurd hk (by simp [ofRm, Opd.ok])
  | mem a =>
    unfold ldRm
    have hk' : e.ok a z.bytes false = false := hk
    hexec' [hc, hk']

theorem setWide_after (h : St) (z : Sz) (p : Int) (v : Bool) :
    SameButFlags (setWide h.g z p) { setWide h.g z p with fl := mulFl h.g.fl v } := by
  refine ⟨rfl, rfl, ?_⟩
  unfold setWide
  split <;> rfl

theorem prod_comm {n : Nat} (sg : Bool) (a b : BitVec n) : prod sg a b = prod sg b a := by
  unfold prod
  split <;> exact Int.mul_comm _ _

theorem mul_spec {n : Nat} (hn : Width n) (sg : Bool) (s : Flags.St) (hs : Clean s) (a b : BitVec n) :
    MulFlags sg n (prod sg a b) (flags (mulFl s (overflows sg n (BitVec.ofInt 64 (prod sg a b))))) := by
  obtain ⟨h1, h2⟩ := mulFl_spec s hs (overflows sg n (BitVec.ofInt 64 (prod sg a b)))
  unfold MulFlags
  rw [h1, h2]
  exact ⟨overflows_eq hn sg a b, rfl⟩

/-- C84, MUL and IMUL with one operand: AX, DX:AX or EDX:EAX get the exact product of the operand and AL, AX or EAX, CF and OF
say that it does not fit in the lower half, nothing else of the guest changes; a fault of the load changes nothing. -/
theorem C84_mul (sg : Bool) {z : Sz} (hz : z ≠ .q) (e : Env) (h : St) (hc : h.r .rcx = e.ctx) (hcl : Clean h.g.fl) (rm : Rm) :
    ((ofRm rm).ok e z false = true → ∃ h', run e 0 (if sg then imul1 z rm else mul z rm) h = .next 0 h' ∧ h'.r .rcx = e.ctx ∧
      SameButFlags (setWide h.g z (prod sg (rdG h.g z ⟨0, false⟩) ((ofRm rm).get h.g z))) h'.g ∧
      MulFlags sg z.bits (prod sg (rdG h.g z ⟨0, false⟩) ((ofRm rm).get h.g z)) (flags h'.g.fl)) ∧
    ((ofRm rm).ok e z false = false → run e 0 (if sg then imul1 z rm else mul z rm) h = .fault h.g) := by
  have key : ∀ pre : List I, (∃ h1, run e 0 pre h = .next 0 h1 ∧ h1.g = h.g ∧ h1.r .rcx = e.ctx ∧
      prod sg (rd h1 z .rax) (rd h1 z .rbx) = prod sg (rdG h.g z ⟨0, false⟩) ((ofRm rm).get h.g z)) →
      ∃ h', run e 0 (pre ++ [.mul1 sg z .rbx] ++ (if z = .b then [.stG .w acc .rax] else [.stG z acc .rax, .stG z edx .rdx]) ++ mulFlags) h = .next 0 h' ∧ h'.r .rcx = e.ctx ∧
      SameButFlags (setWide h.g z (prod sg (rdG h.g z ⟨0, false⟩) ((ofRm rm).get h.g z))) h'.g ∧
      MulFlags sg z.bits (prod sg (rdG h.g z ⟨0, false⟩) ((ofRm rm).get h.g z)) (flags h'.g.fl) := by
    rintro pre ⟨h1, r1, g1, c1, p1⟩
    have := mul1_run hz sg c1
    rw [g1, p1] at this
    obtain ⟨h', r, g, c⟩ := ends_append r1 this
    refine ⟨h', ?_, c, ?_, ?_⟩
    · rw [← r]; simp only [List.append_assoc]
    · rw [g]; exact setWide_after h z _ _
    · rw [g]; exact mul_spec (width hz) sg _ hcl _ _
  cases sg with
  | false =>
    simp only [Bool.false_eq_true, if_false]
    unfold mul
    cases rm with
    | reg r =>
      refine ⟨fun _ => key _ ?_, fun hk => absurd hk (by simp [ofRm, Opd.ok])⟩
      hexec' [hc]
      refine ⟨_, rfl, ?_⟩
      hexec' [hc]
      exact ⟨trivial, trivial, rfl⟩
    | mem a =>
      refine ⟨fun hk => key _ ?_, fun hk => ?_⟩
      · have hk' : e.ok a z.bytes false = true := hk
        hexec' [hc, hk']
        refine ⟨_, rfl, ?_⟩
        hexec' [hc]
        exact ⟨trivial, trivial, prod_comm _ _ _⟩
      · have hk' : e.ok a z.bytes false = false := hk
        hexec' [hc, hk']
  | true =>
    simp only [if_true]
    unfold imul1
    cases rm with
    | reg r =>
      refine ⟨fun _ => key _ ?_, fun hk => absurd hk (by simp [ofRm, Opd.ok])⟩
      hexec' [hc]
      refine ⟨_, rfl, ?_⟩
      hexec' [hc]
      exact ⟨trivial, trivial, rfl⟩
    | mem a =>
      refine ⟨fun hk => key _ ?_, fun hk => ?_⟩
      · have hk' : e.ok a z.bytes false = true := hk
        hexec' [hc, hk']
        refine ⟨_, rfl, ?_⟩
        hexec' [hc]
        exact ⟨trivial, trivial, rfl⟩
      · have hk' : e.ok a z.bytes false = false := hk
        hexec' [hc, hk']

theorem imulTail_run {z : Sz} (hz : z ≠ .q) {e : Env} {h : St} (hc : h.r .rcx = e.ctx) (dst : GReg) (a b : Src) :
    Ends e ([.imul z .rbx a b, .stG z dst .rbx] ++ mulFlags) h
      { wrG h.g z dst (BitVec.ofInt z.bits (prod true (a.val h z) (b.val h z))) with
        fl := mulFl h.g.fl (overflows true z.bits (BitVec.ofInt 64 (prod true (a.val h z) (b.val h z)))) } := by
  have hw := width hz
  have hp := product_eq true (a.val h z) (b.val h z)
  generalize prod true (a.val h z) (b.val h z) = p at hp
  have hs : step e h (.imul z .rbx a b) = .next 0 ((wr h z .rbx ((BitVec.ofInt 64 p).setWidth z.bits)).setF
      (e.hf h .zf) (overflows true z.bits (BitVec.ofInt 64 p)) (overflows true z.bits (BitVec.ofInt 64 p)) (e.hf h .sf)) := by
    rw [← hp]
    exact if_neg hz
  have run1 : ∃ h1, run e 0 [.imul z .rbx a b, .stG z dst .rbx] h = .next 0 h1 ∧
      h1.g = wrG h.g z dst (BitVec.ofInt z.bits p) ∧ h1.r .rcx = e.ctx ∧
      h1.cf = overflows true z.bits (BitVec.ofInt 64 p) ∧ h1.of = h1.cf := by
    unfold run
    rw [hs, ← low_eq hw]
    hexec' [hc]
    refine ⟨_, rfl, ?_⟩
    hexec' [hc]
    exact ⟨trivial, trivial, trivial, trivial⟩
  obtain ⟨h1, r1, g1, c1, v1, v2⟩ := run1
  have := mulFlags_run c1 v1 (v2.trans v1)
  rw [g1] at this
  exact ends_append r1 this

/-- C84, IMUL with two operands (`imm = none`: the destination is multiplied by the operand) or three (the operand by the
immediate): the destination gets the product, truncated, CF and OF say that it did not fit. -/
theorem C84_imul {z : Sz} (hz : z ≠ .q) (e : Env) (h : St) (hc : h.r .rcx = e.ctx) (hcl : Clean h.g.fl) (dst : GReg) (rm : Rm)
    (imm : Option (BitVec 64)) :
    ((ofRm rm).ok e z false = true → ∃ h', run e 0 (match imm with | none => imul2 z dst rm | some v => imul3 z dst rm v) h = .next 0 h' ∧
      h'.r .rcx = e.ctx ∧
      ∃ p, p = prod true ((ofRm rm).get h.g z) (match imm with | none => rdG h.g z dst | some v => v.setWidth z.bits) ∧
      SameButFlags (wrG h.g z dst (BitVec.ofInt z.bits p)) h'.g ∧ MulFlags true z.bits p (flags h'.g.fl)) ∧
    ((ofRm rm).ok e z false = false →
      run e 0 (match imm with | none => imul2 z dst rm | some v => imul3 z dst rm v) h = .fault h.g) := by
  refine ⟨fun hk => ?_, fun hk => ?_⟩
  · obtain ⟨h1, r1, g1, c1, v1, _⟩ := ldRm_run hc rm hk
    cases imm with
    | none =>
      have run2 : ∃ h2, run e 0 [.ldG z .rbx dst] h1 = .next 0 h2 ∧ h2.g = h.g ∧ h2.r .rcx = e.ctx ∧
          rd h2 z .rax = (ofRm rm).get h.g z ∧ rd h2 z .rbx = rdG h.g z dst := by
        hexec' [c1]
        refine ⟨_, rfl, ?_⟩
        hexec' [c1, v1, g1]
        exact ⟨trivial, trivial, trivial, trivial⟩
      obtain ⟨h2, r2, g2, c2, v2, w2⟩ := run2
      have := imulTail_run hz c2 dst (.reg .rbx) (.reg .rax)
      simp only [Src.val] at this
      rw [g2, v2, w2] at this
      obtain ⟨h', r, g, c⟩ := ends_append r1 (ends_append r2 this)
      refine ⟨h', ?_, c, _, rfl, ?_, ?_⟩
      · rw [← r]; simp only [imul2, List.append_assoc, List.cons_append, List.nil_append]
      · rw [g, prod_comm]; exact ⟨rfl, rfl, rfl⟩
      · rw [g, prod_comm true (rdG h.g z dst)]; exact mul_spec (width hz) true _ hcl _ _
    | some v =>
      have := imulTail_run hz c1 dst (.reg .rax) (.imm v)
      simp only [Src.val] at this
      rw [g1, v1] at this
      obtain ⟨h', r, g, c⟩ := ends_append r1 this
      refine ⟨h', ?_, c, _, rfl, ?_, ?_⟩
      · rw [← r]; simp only [imul3, List.append_assoc]
      · rw [g]; exact ⟨rfl, rfl, rfl⟩
      · rw [g]; exact mul_spec (width hz) true _ hcl _ _
  · cases imm with
    | none => simp only [imul2, List.append_assoc]; exact run_append_fault _ (ldRm_fault hc rm hk)
    | some v => simp only [imul3, List.append_assoc]; exact run_append_fault _ (ldRm_fault hc rm hk)


theorem low_of (k m : Nat) (hk : k ≤ m) (x : Int) : BitVec.setWidth k (BitVec.ofInt m x) = BitVec.ofInt k x := by
  apply BitVec.eq_of_toNat_eq
  have hd : ((2 ^ k : Nat) : Int) ∣ ((2 ^ m : Nat) : Int) := Int.natCast_dvd_natCast.2 (Nat.pow_dvd_pow 2 hk)
  rw [BitVec.toNat_setWidth, BitVec.toNat_ofInt, BitVec.toNat_ofInt]
  have h1 : (0 : Int) < ((2 ^ m : Nat) : Int) := by have := Nat.two_pow_pos m; omega
  have h2 : (0 : Int) < ((2 ^ k : Nat) : Int) := by have := Nat.two_pow_pos k; omega
  have h3 := Int.emod_nonneg x (b := ((2 ^ m : Nat) : Int)) (by omega)
  have h4 := Int.emod_nonneg x (b := ((2 ^ k : Nat) : Int)) (by omega)
  have h5 : ((x % ((2 ^ m : Nat) : Int)).toNat % 2 ^ k : Nat) = ((x % ((2 ^ m : Nat) : Int)) % ((2 ^ k : Nat) : Int)).toNat := by
    rw [Int.toNat_emod h3 (by omega)]; rfl
  rw [h5, Int.emod_emod_of_dvd _ hd]

theorem high_of (k : Nat) (hk : k = 16 ∨ k = 32) (x : Int) :
    BitVec.setWidth k (BitVec.ofInt (2 * k) x >>> k) = BitVec.ofInt k (x / 2 ^ k) := by
  apply BitVec.eq_of_toNat_eq
  rw [BitVec.toNat_setWidth, BitVec.toNat_ushiftRight, BitVec.toNat_ofInt, BitVec.toNat_ofInt, Nat.shiftRight_eq_div_pow]
  rcases hk with rfl | rfl <;> omega

/-- C84, CBW, CWDE, CWD, CDQ: AX or EAX get the sign extension of AL or AX, DX or EDX the upper half of that of AX or EAX;
no flag and no other register changes. -/
theorem C84_convert (e : Env) (h : St) (hc : h.r .rcx = e.ctx) :
    Ends e cbw h (wrG h.g .w ⟨0, false⟩ (BitVec.ofInt 16 (rdG h.g .b ⟨0, false⟩).toInt)) ∧
    Ends e cwde h (wrG h.g .d ⟨0, false⟩ (BitVec.ofInt 32 (rdG h.g .w ⟨0, false⟩).toInt)) ∧
    Ends e cwd h (wrG h.g .w ⟨2, false⟩ (BitVec.ofInt 16 ((rdG h.g .w ⟨0, false⟩).toInt / 2 ^ 16))) ∧
    Ends e cdq h (wrG h.g .d ⟨2, false⟩ (BitVec.ofInt 32 ((rdG h.g .d ⟨0, false⟩).toInt / 2 ^ 32))) := by
  refine ⟨?_, ?_, ?_, ?_⟩
  · unfold Ends cbw
    hexec' [hc]
    refine ⟨_, rfl, ?_⟩
    hexec' [hc, rd_wr_d]
    exact ⟨congrArg (wrG h.g .w acc) (low_of 16 32 (by decide) _), trivial⟩
  · unfold Ends cwde
    hexec' [hc]
    refine ⟨_, rfl, ?_⟩
    hexec' [hc]
    exact ⟨rfl, trivial⟩
  · unfold Ends cwd
    hexec' [hc]
    refine ⟨_, rfl, ?_⟩
    hexec' [hc, rd_wr_d]
    exact ⟨congrArg (wrG h.g .w edx) (high_of 16 (by decide) _), trivial⟩
  · unfold Ends cdq
    hexec' [hc]
    refine ⟨_, rfl, ?_⟩
    hexec' [hc]
    exact ⟨congrArg (wrG h.g .d edx) (high_of 32 (by decide) _), trivial⟩

/-- C84, MOVSX and MOVZX. -/
theorem C84_movx (sg : Bool) {zd zs : Sz} (e : Env) (h : St) (hc : h.r .rcx = e.ctx) (dst : GReg) (rm : Rm) :
    ((ofRm rm).ok e zs false = true → ∃ h', run e 0 (movx sg zd zs dst rm) h = .next 0 h' ∧ h'.r .rcx = e.ctx ∧
      h'.g = wrG h.g zd dst (extend sg zd ((ofRm rm).get h.g zs))) ∧
    ((ofRm rm).ok e zs false = false → run e 0 (movx sg zd zs dst rm) h = .fault h.g) := by
  unfold movx
  refine ⟨fun hk => ?_, fun hk => run_append_fault _ (ldRm_fault hc rm hk)⟩
  obtain ⟨h1, r1, g1, c1, v1, _⟩ := ldRm_run hc rm hk
  rw [run_append _ r1]
  hexec' [c1]
  refine ⟨_, rfl, ?_⟩
  hexec' [c1, v1, g1]
  refine ⟨trivial, congrArg _ ?_⟩
  unfold extend
  cases sg with
  | true => rfl
  | false => exact BitVec.eq_of_toNat_eq (by simp)

theorem bswap_bytes (x : BitVec 32) : ∀ k < 4,
    ((((x <<< 24) ||| ((x &&& 0xFF00#32) <<< 8) ||| ((x >>> 8) &&& 0xFF00#32) ||| (x >>> 24)) >>> (8 * k)).setWidth 8 : BitVec 8) =
      (x >>> (8 * (3 - k))).setWidth 8 := by
  intro k hk
  rcases (by omega : k = 0 ∨ k = 1 ∨ k = 2 ∨ k = 3) with rfl | rfl | rfl | rfl <;> bits8 <;> simp [BitVec.getLsbD_of_ge]

/-- C84, BSWAP: the bytes of the register in reverse order. -/
theorem C84_bswap (e : Env) (h : St) (hc : h.r .rcx = e.ctx) (i : Fin 8) :
    ∃ h', run e 0 (bswap ⟨i, false⟩) h = .next 0 h' ∧ h'.r .rcx = e.ctx ∧
      ∃ v, h'.g = wrG h.g .d ⟨i, false⟩ v ∧ ∀ k < 4, (v >>> (8 * k)).setWidth 8 = (h.g.gpr i >>> (8 * (3 - k))).setWidth 8 := by
  unfold bswap
  hexec' [hc]
  refine ⟨_, rfl, ?_⟩
  hexec' [hc]
  refine ⟨trivial, _, rfl, ?_⟩
  rw [rdG_d]
  exact bswap_bytes _

/-! Non-trivial cases, on the state of Props/Emit.lean (AL = 0xFF, EAX = 0x2FF, EBX = 1, bytes 0x80 in memory). -/

-- MUL byte [0x2000]: 0xFF * 0x80 = 0x7F80, CF and OF; IMUL: -1 * -128 = 128, does not fit
example : exOut (run exEnv 0 (mul .b (.mem (exEa 0x2000#32))) exSt) 0 0 = some (0x7F80#32, 0x80#8, 0x807#32) := by decide +kernel
example : exOut (run exEnv 0 (imul1 .b (.mem (exEa 0x2000#32))) exSt) 0 0 = some (0x80#32, 0x80#8, 0x807#32) := by decide +kernel
example : (ofRm (.mem (exEa 0x2000#32))).ok exEnv .b false = true ∧ ¬ fits true 8 (prod true 0xFF#8 0x80#8) := by unfold fits; decide
-- IMUL EBX, EAX, 2 fits: 0x5FE, no CF
example : exOut (run exEnv 0 (imul3 .d ⟨3, false⟩ (.reg ⟨0, false⟩) 2#64) exSt) 3 0 = some (0x5FE#32, 0x80#8, 6#32) := by decide +kernel
example : exOut (run exEnv 0 (imul2 .d ⟨3, false⟩ (.reg ⟨0, false⟩)) exSt) 3 0 = some (0x2FF#32, 0x80#8, 6#32) := by decide +kernel
-- CBW, CWD, MOVSX BX, [0x2000], BSWAP EAX
example : exOut (run exEnv 0 cbw exSt) 0 0 = some (0xFFFF#32, 0x80#8, 0x807#32) := by decide +kernel
example : exOut (run exEnv 0 cwd exSt) 2 0 = some (0#32, 0x80#8, 0x807#32) := by decide +kernel
example : exOut (run exEnv 0 (movx true .w .b ⟨3, false⟩ (.mem (exEa 0x2000#32))) exSt) 3 0 = some (0xFF80#32, 0x80#8, 0x807#32) := by decide +kernel
example : exOut (run exEnv 0 (bswap ⟨0, false⟩) exSt) 0 0 = some (0xFF020000#32, 0x80#8, 0x807#32) := by decide +kernel

end Verif.Emit
