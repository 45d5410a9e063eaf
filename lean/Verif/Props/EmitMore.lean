import Verif.Props.EmitMul
/-!
C84, continued: bit scans, conditional sets and moves, flag instructions, XLAT and BOUND.
-/
namespace Verif.Emit
open Host Guest Spec
open Flags (Clean flags Width)

theorem find_first {p : Nat → Bool} {R : Nat → Nat → Prop} : ∀ {l : List Nat} {i : Nat}, l.Pairwise R → l.find? p = some i →
    ∀ j, j ∈ l → p j = true → j = i ∨ R i j := by
  intro l
  induction l with
  | nil => intro i _ h; cases h
  | cons x l ih =>
    intro i hl h j hj pj
    rw [List.find?_cons] at h
    rw [List.pairwise_cons] at hl
    cases hx : p x with
    | true =>
      rw [hx] at h
      cases h
      rcases List.mem_cons.1 hj with rfl | hj
      · exact Or.inl rfl
      · exact Or.inr (hl.1 j hj)
    | false =>
      rw [hx] at h
      rcases List.mem_cons.1 hj with rfl | hj
      · rw [hx] at pj; cases pj
      · exact ih hl.2 h j hj pj

theorem scan_some {n : Nat} {rv : Bool} {x : BitVec n} {i : Nat} (h : scan rv x = some i) : IsScan rv x i := by
  unfold scan at h
  refine ⟨List.find?_some h, fun j hj => ?_⟩
  have hjn : j < n := Decidable.byContradiction fun hn => by rw [BitVec.getLsbD_of_ge _ _ (by omega)] at hj; cases hj
  cases rv with
  | false =>
    simp only [Bool.false_eq_true, if_false] at h ⊢
    rcases find_first List.pairwise_lt_range h j (List.mem_range.2 hjn) hj with rfl | h <;> omega
  | true =>
    simp only [if_true] at h ⊢
    rcases find_first (List.pairwise_reverse.2 List.pairwise_lt_range) h j (List.mem_reverse.2 (List.mem_range.2 hjn)) hj with rfl | h <;> omega

theorem scan_none {n : Nat} {rv : Bool} {x : BitVec n} (h : scan rv x = none) : x = 0#n := by
  unfold scan at h
  rw [List.find?_eq_none] at h
  apply BitVec.eq_of_getLsbD_eq
  intro i hi
  have := h i (by cases rv <;> simp [hi])
  simpa using this

theorem zf_res {s : Flags.St} (h : Clean s) (r : BitVec 32) : (flags { s with res := r }).zf = decide (r = 0#32) := by
  have hc : Clean { s with res := r } := h
  rw [Flags.flags_eq hc]

/-- C84, BSF and BSR: if the source is not zero the destination gets the number of its least or greatest set bit and ZF is
clear; if it is zero ZF is set and the destination is some value.  The other arithmetic flags are undefined; nothing else
changes. -/
theorem C84_scan (rv : Bool) {z : Sz} (e : Env) (h : St) (hc : h.r .rcx = e.ctx) (hcl : Clean h.g.fl) (dst : GReg) (rm : Rm) :
    ((ofRm rm).ok e z false = true → ∃ h' v, run e 0 (bscan rv z dst rm) h = .next 0 h' ∧ h'.r .rcx = e.ctx ∧
      SameButFlags (wrG h.g z dst v) h'.g ∧ ((flags h'.g.fl).zf = true ↔ (ofRm rm).get h.g z = 0#z.bits) ∧
      ((ofRm rm).get h.g z ≠ 0#z.bits → IsScan rv ((ofRm rm).get h.g z) v.toNat)) ∧
    ((ofRm rm).ok e z false = false → run e 0 (bscan rv z dst rm) h = .fault h.g) := by
  unfold bscan
  refine ⟨fun hk => ?_, fun hk => run_append_fault _ (ldRm_fault hc rm hk)⟩
  obtain ⟨h1, r1, g1, c1, v1, _⟩ := ldRm_run hc rm hk
  generalize (ofRm rm).get h.g z = x at v1 ⊢
  rw [run_append _ r1]
  cases hs : scan rv x with
  | none =>
    have hx := scan_none hs
    have st : step e h1 (.bs rv z .r8 .rax) = .next 0 ((h1.set .r8 (e.hv h1 .r8)).setF true (e.hf h1 .cf) (e.hf h1 .of) (e.hf h1 .sf)) := by
      simp only [step, v1, hs]
    unfold run
    rw [st]
    hexec' [c1]
    refine ⟨_, BitVec.setWidth z.bits (e.hv h1 .r8), rfl, ?_⟩
    hexec' [c1, g1]
    refine ⟨trivial, ⟨rfl, rfl, rfl⟩, ?_, fun hn => absurd hx hn⟩
    show (flags { h.g.fl with res := 0#32 }).zf = true ↔ x = 0#z.bits
    rw [zf_res hcl]
    exact ⟨fun _ => hx, fun _ => rfl⟩
  | some i =>
    have hx := scan_some hs
    have hx0 : x ≠ 0#z.bits := by
      intro h0
      have := hx.1
      rw [h0] at this
      simp at this
    have hi : i < z.bits := Decidable.byContradiction fun hn => by
      have := hx.1
      rw [BitVec.getLsbD_of_ge _ _ (by omega)] at this
      cases this
    have st : step e h1 (.bs rv z .r8 .rax) = .next 0 ((wr h1 z .r8 (BitVec.ofNat z.bits i)).setF false (e.hf h1 .cf) (e.hf h1 .of) (e.hf h1 .sf)) := by
      simp only [step, v1, hs]
    unfold run
    rw [st]
    hexec' [c1]
    refine ⟨_, BitVec.ofNat z.bits i, rfl, ?_⟩
    hexec' [c1, g1]
    refine ⟨trivial, ⟨rfl, rfl, rfl⟩, ?_, fun _ => ?_⟩
    · show (flags { h.g.fl with res := 1#32 }).zf = true ↔ x = 0#z.bits
      rw [zf_res hcl]
      exact ⟨fun hn => absurd hn (by decide), fun h0 => absurd h0 hx0⟩
    · rw [BitVec.toNat_ofNat, Nat.mod_eq_of_lt (by have := Nat.lt_two_pow_self (n := z.bits); omega)]
      exact hx

/-- The value a true or false condition stores. -/
theorem setcc_does (c : Flags.CC) (e : Env) (h : St) (hc : h.r .rcx = e.ctx) (rm : Rm) :
    Does e (setcc c rm) h ((ofRm rm).ok e .b true) ((ofRm rm).set h.g .b (if Flags.ccTest h.g.fl c then 1#8 else 0#8)) := by
  obtain ⟨h1, r1, g1, c1, v1⟩ := cond_run hc c
  unfold setcc
  cases rm with
  | reg r =>
    refine does_reg rfl (ends_append r1 ?_)
    unfold Ends
    hexec' [c1]
    refine ⟨_, rfl, ?_⟩
    hexec' [c1, g1]
    rw [v1]
    exact ⟨rfl, trivial⟩
  | mem a =>
    refine does_load rfl (fun hk => ends_append r1 ?_) fun hk => (run_append _ r1).trans ?_
    · have hk' : e.ok a Sz.b.bytes true = true := hk
      unfold Ends
      hexec' [c1, hk']
      refine ⟨_, rfl, ?_⟩
      hexec' [c1, g1]
      rw [v1]
      exact ⟨rfl, trivial⟩
    · have hk' : e.ok a Sz.b.bytes true = false := hk
      hexec' [c1, hk', g1]

/-- C84, SETcc: the byte operand becomes 1 if the condition holds of the flags in EFLAGS, else 0; nothing else changes. -/
theorem C84_setcc (c : Flags.CC) (e : Env) (h : St) (hc : h.r .rcx = e.ctx) (hcl : Clean h.g.fl) (rm : Rm) :
    ((ofRm rm).ok e .b true = true → ∃ h', run e 0 (setcc c rm) h = .next 0 h' ∧ h'.r .rcx = e.ctx ∧
      h'.g = (ofRm rm).set h.g .b (if c.spec.holds (flags h.g.fl) then 1#8 else 0#8)) ∧
    ((ofRm rm).ok e .b true = false → run e 0 (setcc c rm) h = .fault h.g) := by
  obtain ⟨h1, h2⟩ := setcc_does c e h hc rm
  refine ⟨fun ha => ?_, h2⟩
  obtain ⟨h', r, g, k⟩ := h1 ha
  rw [Flags.C58_condition _ hcl] at g
  exact ⟨h', r, k, g⟩

theorem putG_rdG : ∀ (z : Sz) (hi : Bool) (x : BitVec 32), z ≠ .q →
    putG z hi x (if z = .b ∧ hi = true then (x >>> 8).setWidth z.bits else x.setWidth z.bits) = x := by
  intro z hi x hz
  cases z <;> cases hi <;> first | exact absurd rfl hz | skip
  · show (x &&& 0xFFFFFF00#32) ||| BitVec.setWidth 32 (BitVec.setWidth 8 x) = x
    bits32
  · show (x &&& 0xFFFF00FF#32) ||| (BitVec.setWidth 32 (BitVec.setWidth 8 (x >>> 8)) <<< 8) = x
    bits32
  · show (x &&& 0xFFFF0000#32) ||| BitVec.setWidth 32 (BitVec.setWidth 16 x) = x
    bits32
  · show (x &&& 0xFFFF0000#32) ||| BitVec.setWidth 32 (BitVec.setWidth 16 x) = x
    bits32
  · show BitVec.setWidth 32 x = x
    exact BitVec.setWidth_eq x
  · show BitVec.setWidth 32 x = x
    exact BitVec.setWidth_eq x

theorem wrG_rdG (g : G) (z : Sz) (r : GReg) (hz : z ≠ .q) : wrG g z r (rdG g z r) = g := by
  have h := putG_rdG z r.hi (g.gpr r.idx) hz
  have : (wrG g z r (rdG g z r)).gpr = g.gpr := by
    funext i
    show (if i = r.idx then _ else _) = _
    by_cases hi : i = r.idx
    · rw [if_pos hi, hi]; exact h
    · rw [if_neg hi]
  show ({ g with gpr := (wrG g z r (rdG g z r)).gpr } : G) = g
  rw [this]

/-- C84, CMOVcc: the destination gets the source if the condition holds of the flags in EFLAGS, else keeps its value; a memory
source is loaded, and faults, in both cases. -/
theorem C84_cmovcc (c : Flags.CC) {z : Sz} (hz : z ≠ .q) (e : Env) (h : St) (hc : h.r .rcx = e.ctx) (hcl : Clean h.g.fl) (dst : GReg) (rm : Rm) :
    ((ofRm rm).ok e z false = true → ∃ h', run e 0 (cmovcc c z dst rm) h = .next 0 h' ∧ h'.r .rcx = e.ctx ∧
      h'.g = if c.spec.holds (flags h.g.fl) then wrG h.g z dst ((ofRm rm).get h.g z) else h.g) ∧
    ((ofRm rm).ok e z false = false → run e 0 (cmovcc c z dst rm) h = .fault h.g) := by
  obtain ⟨h1, r1, g1, c1, v1⟩ := cond_run hc c
  have run2 : ∃ h2, run e 0 [.movzx .b .rbx .r8] h1 = .next 0 h2 ∧ h2.g = h.g ∧ h2.r .rcx = e.ctx ∧
      rd h2 .d .rbx = if Flags.ccTest h.g.fl c then 1#32 else 0#32 := by
    hexec' [c1]
    refine ⟨_, rfl, ?_⟩
    hexec' [c1, g1]
    rw [v1]
    refine ⟨trivial, trivial, ?_⟩
    split <;> rfl
  obtain ⟨h2, r2, g2, c2, v2⟩ := run2
  unfold cmovcc
  rw [List.append_assoc, List.append_assoc, run_append _ r1, run_append _ r2]
  refine ⟨fun hk => ?_, fun hk => ?_⟩
  · obtain ⟨h3, r3, g3, c3, v3, b3⟩ := ldRm_run c2 rm hk
    have b3' : rd h3 .d .rbx = if Flags.ccTest h.g.fl c then 1#32 else 0#32 := by
      unfold rd at v2 ⊢
      rw [b3]; exact v2
    rw [run_append _ r3]
    rw [g2] at g3 v3
    hexec' [c3]
    refine ⟨_, rfl, ?_⟩
    hexec' [c3, g3, v3, b3']
    refine ⟨trivial, ?_⟩
    rw [← Flags.C58_condition _ hcl]
    cases Flags.ccTest h.g.fl c with
    | true => rfl
    | false => exact wrG_rdG h.g z dst hz
  · rw [run_append_fault _ (ldRm_fault c2 rm hk), g2]


/-- C84, CLC, STC, CMC, CLD, STD: exactly CF, or DF, changes. -/
theorem C84_flags (e : Env) (h : St) (hc : h.r .rcx = e.ctx) (hcl : Clean h.g.fl) :
    (∃ h', run e 0 clc h = .next 0 h' ∧ h'.r .rcx = e.ctx ∧ SameButFlags h.g h'.g ∧ flags h'.g.fl = { flags h.g.fl with cf := false }) ∧
    (∃ h', run e 0 stc h = .next 0 h' ∧ h'.r .rcx = e.ctx ∧ SameButFlags h.g h'.g ∧ flags h'.g.fl = { flags h.g.fl with cf := true }) ∧
    (∃ h', run e 0 cmc h = .next 0 h' ∧ h'.r .rcx = e.ctx ∧ SameButFlags h.g h'.g ∧
      flags h'.g.fl = { flags h.g.fl with cf := !(flags h.g.fl).cf }) ∧
    (∃ h', run e 0 cld h = .next 0 h' ∧ h'.r .rcx = e.ctx ∧ h'.g = { h.g with fl := { h.g.fl with eflags := h.g.fl.eflags &&& ~~~0x400#32 } }) ∧
    (∃ h', run e 0 std h = .next 0 h' ∧ h'.r .rcx = e.ctx ∧ h'.g = { h.g with fl := { h.g.fl with eflags := h.g.fl.eflags ||| 0x400#32 } }) := by
  refine ⟨?_, ?_, ?_, ?_, ?_⟩
  · have : Ends e clc h { h.g with fl := Flags.clcOp h.g.fl } := by
      unfold Ends clc ldOf
      hexec' [hc]
      refine ⟨_, rfl, ?_⟩
      hexec' [hc]
      exact ⟨rfl, trivial⟩
    obtain ⟨h', r, g, c⟩ := this
    exact ⟨h', r, c, by rw [g]; exact ⟨rfl, rfl, rfl⟩, by rw [g]; exact Flags.C27_clc _ hcl⟩
  · have : Ends e stc h { h.g with fl := Flags.stcOp h.g.fl } := by
      unfold Ends stc ldOf
      hexec' [hc]
      refine ⟨_, rfl, ?_⟩
      hexec' [hc]
      exact ⟨rfl, trivial⟩
    obtain ⟨h', r, g, c⟩ := this
    exact ⟨h', r, c, by rw [g]; exact ⟨rfl, rfl, rfl⟩, by rw [g]; exact Flags.C27_stc _ hcl⟩
  · have : Ends e cmc h { h.g with fl := Flags.cmcOp h.g.fl } := by
      unfold Ends cmc ldOf
      hexec' [hc]
      refine ⟨_, rfl, ?_⟩
      hexec' [hc]
      exact ⟨rfl, trivial⟩
    obtain ⟨h', r, g, c⟩ := this
    exact ⟨h', r, c, by rw [g]; exact ⟨rfl, rfl, rfl⟩, by rw [g]; exact Flags.C27_cmc _ hcl⟩
  · unfold cld
    hexec' [hc]
    refine ⟨_, rfl, ?_⟩
    hexec' [hc]
    exact ⟨trivial, rfl⟩
  · unfold std
    hexec' [hc]
    refine ⟨_, rfl, ?_⟩
    hexec' [hc]
    exact ⟨trivial, rfl⟩

/-- Signed order from the host's flags after a comparison. -/
theorem sf_of {n : Nat} (hn : Width n) (a b : BitVec n) :
    ((a - b).msb != decide ((a - b).toInt ≠ a.toInt - b.toInt)) = decide (a.toInt < b.toInt) := by
  have h1 := BitVec.toInt_lt (x := a)
  have h2 := BitVec.le_toInt a
  have h3 := BitVec.toInt_lt (x := b)
  have h4 := BitVec.le_toInt b
  rw [BitVec.msb_eq_toInt, BitVec.toInt_sub]
  generalize a.toInt = x at *
  generalize b.toInt = y at *
  rw [Bool.eq_iff_iff, bne_iff_ne, ne_eq, decide_eq_decide, decide_eq_true_iff]
  rcases hn with rfl | rfl | rfl <;> rw [Int.bmod_def] <;> omega

theorem gt_of {n : Nat} (hn : Width n) (a b : BitVec n) :
    (!(a == b) && ((a - b).msb == decide ((a - b).toInt ≠ a.toInt - b.toInt))) = decide (b.toInt < a.toInt) := by
  have h := sf_of hn a b
  have h0 : (a == b) = decide (a.toInt = b.toInt) := by
    rw [Bool.eq_iff_iff, beq_iff_eq, decide_eq_true_iff, BitVec.toInt_inj]
  generalize decide ((a - b).toInt ≠ a.toInt - b.toInt) = o at *
  generalize (a - b).msb = s at *
  rw [h0]
  by_cases h1 : a.toInt < b.toInt
  · rw [decide_eq_true h1] at h
    rw [decide_eq_false (by omega : ¬ b.toInt < a.toInt)]
    cases s <;> cases o <;> simp at h ⊢
  · rw [decide_eq_false h1] at h
    by_cases h2 : a.toInt = b.toInt
    · rw [decide_eq_false (by omega : ¬ b.toInt < a.toInt), decide_eq_true h2]; rfl
    · rw [decide_eq_true (by omega : b.toInt < a.toInt), decide_eq_false h2]
      cases s <;> cases o <;> simp at h ⊢

theorem bound_tail {p q : Bool} {A B : Prop} [Decidable A] [Decidable B] (hp : p = decide A) (hq : q = decide B) :
    ((if (((if p = true then 1#8 else 0#8) ||| if q = true then 1#8 else 0#8) == BitVec.setWidth Sz.b.bits 0#64) = true then 1 else 0) = 0 ∨
     (if (((if p = true then 1#8 else 0#8) ||| if q = true then 1#8 else 0#8) == BitVec.setWidth Sz.b.bits 0#64) = true then 1 else 0) = 1) ∧
    ((if (((if p = true then 1#8 else 0#8) ||| if q = true then 1#8 else 0#8) == BitVec.setWidth Sz.b.bits 0#64) = true then 1 else 0) = 0 ↔ A ∨ B) := by
  subst hp hq
  by_cases a : A <;> by_cases b : B <;> simp only [a, b, decide_true, decide_false, Bool.false_eq_true, if_true, if_false] <;> decide

/-- C84, BOUND: the index is compared as a signed number with the two bounds at the operand and after it; the code falls
through to the raising of the exception iff it is below the first or above the second, and changes nothing of the guest. -/
theorem C84_bound {z : Sz} (hz : z ≠ .q) (e : Env) (h : St) (hc : h.r .rcx = e.ctx) (dst : GReg) (a : Ea) :
    (e.ok a z.bytes false = true → e.ok (a + BitVec.ofNat 32 z.bytes) z.bytes false = true →
      ∃ h' k, run e 0 (bound z dst a) h = .next k h' ∧ h'.r .rcx = e.ctx ∧ h'.g = h.g ∧ (k = 0 ∨ k = 1) ∧
        (k = 0 ↔ (rdG h.g z dst).toInt < ((Opd.mem a).get h.g z).toInt ∨
          ((Opd.mem (a + BitVec.ofNat 32 z.bytes)).get h.g z).toInt < (rdG h.g z dst).toInt)) ∧
    (e.ok a z.bytes false = false ∨ e.ok (a + BitVec.ofNat 32 z.bytes) z.bytes false = false → run e 0 (bound z dst a) h = .fault h.g) := by
  have hw := width hz
  have hsz : BitVec.setWidth Sz.d.bits (BitVec.ofNat 64 z.bytes) = BitVec.ofNat 32 z.bytes := by
    cases z <;> rfl
  unfold bound
  refine ⟨fun k1 k2 => ?_, fun k => ?_⟩
  · hexec' [hc, k1, k2, hsz]
    refine ⟨_, _, rfl, ?_⟩
    hexec' [hc]
    exact ⟨trivial, trivial, bound_tail (sf_of hw _ _) (gt_of hw _ _)⟩
  · by_cases k1 : e.ok a z.bytes false = true
    · have k2 : e.ok (a + BitVec.ofNat 32 z.bytes) z.bytes false = false := by
        rcases k with k | k
        · rw [k1] at k; cases k
        · exact k
      hexec' [hc, k1, k2, hsz]
    · have k1 : e.ok a z.bytes false = false := by simpa using k1
      hexec' [hc, k1]

theorem xlat16 (b : BitVec 16) (a : BitVec 8) (h : b.toNat + a.toNat < 65536) :
    BitVec.setWidth 32 b + BitVec.setWidth 32 a = BitVec.ofNat 32 ((b.toNat + a.toNat) % 65536) := by
  apply BitVec.eq_of_toNat_eq
  rw [BitVec.toNat_add, BitVec.toNat_setWidth, BitVec.toNat_setWidth, BitVec.toNat_ofNat]
  omega

theorem xlat32 (b : BitVec 32) (a : BitVec 8) : b + BitVec.setWidth 32 a = BitVec.ofNat 32 (b.toNat + a.toNat) := by
  apply BitVec.eq_of_toNat_eq
  rw [BitVec.toNat_add, BitVec.toNat_setWidth, BitVec.toNat_ofNat]
  omega

theorem load_one (m : Mem) (a : BitVec 32) : BitVec.ofNat Sz.b.bits (load m a Sz.b.bytes) = m a := by
  show BitVec.ofNat 8 (0 + (m (a + 0#32)).toNat * 256 ^ 0) = m a
  rw [BitVec.add_zero, Nat.pow_zero, Nat.mul_one, Nat.zero_add, BitVec.ofNat_toNat, BitVec.setWidth_eq]

/-- C84, XLAT: AL gets the byte at the segment's base plus EBX (or BX) plus AL.  Missing: 16 bit addresses whose offset wraps,
see C84_xlat_violation. -/
theorem C84_xlat_partial (addr16 : Bool) (base : Option (BitVec 32)) (e : Env) (h : St) (hc : h.r .rcx = e.ctx)
    (hw : addr16 = true → (rdG h.g .w ⟨3, false⟩).toNat + (rdG h.g .b ⟨0, false⟩).toNat < 65536) :
    (e.ok (xlatAddr addr16 base h.g) 1 false = true → ∃ h', run e 0 (xlat addr16 base) h = .next 0 h' ∧ h'.r .rcx = e.ctx ∧
      h'.g = wrG h.g .b ⟨0, false⟩ (h.g.mem (xlatAddr addr16 base h.g))) ∧
    (e.ok (xlatAddr addr16 base h.g) 1 false = false → run e 0 (xlat addr16 base) h = .fault h.g) := by
  have key : ∃ h1, run e 0 (xlatEa addr16 base) h = .next 0 h1 ∧
      h1.g = h.g ∧ h1.r .rcx = e.ctx ∧ rd h1 .d .rdx = xlatAddr addr16 base h.g := by
    have hb (b : BitVec 32) : BitVec.setWidth Sz.d.bits (BitVec.setWidth 64 b) = b := BitVec.setWidth_setWidth_of_le b (by decide)
    unfold xlatEa xlatAddr
    cases addr16 with
    | true =>
      have hx := xlat16 (rdG h.g .w ⟨3, false⟩) (rdG h.g .b ⟨0, false⟩) (hw rfl)
      cases base with
      | none =>
        hexec' [hc]
        refine ⟨_, rfl, ?_⟩
        hexec' [hc]
        exact ⟨trivial, trivial, hx.trans (BitVec.zero_add _).symm⟩
      | some b =>
        hexec' [hc]
        refine ⟨_, rfl, ?_⟩
        hexec' [hc, hb]
        exact ⟨trivial, trivial, (congrArg (· + b) hx).trans (BitVec.add_comm _ _)⟩
    | false =>
      have hx := xlat32 (h.g.gpr 3) (rdG h.g .b ⟨0, false⟩)
      cases base with
      | none =>
        hexec' [hc]
        refine ⟨_, rfl, ?_⟩
        hexec' [hc, rdG_d]
        exact ⟨trivial, trivial, hx.trans (BitVec.zero_add _).symm⟩
      | some b =>
        hexec' [hc]
        refine ⟨_, rfl, ?_⟩
        hexec' [hc, hb, rdG_d]
        exact ⟨trivial, trivial, (congrArg (· + b) hx).trans (BitVec.add_comm _ _)⟩
  obtain ⟨h1, r1, g1, c1, v1⟩ := key
  unfold xlat
  rw [run_append _ r1]
  generalize xlatAddr addr16 base h.g = a at v1
  refine ⟨fun k => ?_, fun k => ?_⟩
  · have k' : e.ok a Sz.b.bytes false = true := k
    hexec' [c1, v1, k']
    refine ⟨_, rfl, ?_⟩
    hexec' [c1, g1]
    rw [load_one]
    exact ⟨trivial, rfl⟩
  · have k' : e.ok a Sz.b.bytes false = false := k
    hexec' [c1, v1, k', g1]

/-- C84 fails for XLAT with 16 bit addresses when BX + AL exceeds 0xFFFF: the byte is read from beyond the first 64K of the
segment instead of from its start. -/
theorem C84_xlat_violation : ∃ (e : Env) (h : St), h.r .rcx = e.ctx ∧ Clean h.g.fl ∧ xlatAddr true none h.g = 0#32 ∧ h.g.mem 0#32 = 0x11#8 ∧
    ∃ h', run e 0 (xlat true none) h = .next 0 h' ∧ rdG h'.g .b ⟨0, false⟩ = 0x22#8 := by
  let g : G := { gpr := fun i => if i = 0 then 1#32 else if i = 3 then 0xFFFF#32 else 0#32, fl := ⟨2#32, 0x100#32, 0#32⟩,
                 mem := fun a => if a = 0x10000#32 then 0x22#8 else 0x11#8 }
  let s : St := { exSt with g := g }
  refine ⟨exEnv, s, rfl, by unfold Clean; decide, by decide +kernel, by decide +kernel, ?_⟩
  have : ∃ h', run exEnv 0 (xlat true none) s = .next 0 h' := ⟨_, rfl⟩
  obtain ⟨h', hr⟩ := this
  refine ⟨h', hr, ?_⟩
  have hx : (match run exEnv 0 (xlat true none) s with | .next _ x => some (rdG x.g .b ⟨0, false⟩) | _ => none) = some 0x22#8 := by decide +kernel
  rw [hr] at hx
  exact Option.some.inj hx

/-! Non-trivial cases, on the state of Props/Emit.lean (EAX = 0x2FF, EBX = 1, CF set, ZF and SF clear, bytes 0x80 in memory). -/

-- BSF EBX, EAX and BSR; a zero source sets ZF
example : exOut (run exEnv 0 (bscan false .b ⟨3, false⟩ (.mem (exEa 0x2000#32))) exSt) 3 0 = some (7#32, 0x80#8, 0x803#32) := by decide +kernel
example : exOut (run exEnv 0 (bscan true .d ⟨3, false⟩ (.reg ⟨0, false⟩)) exSt) 3 0 = some (9#32, 0x80#8, 0x803#32) := by decide +kernel
example : exOut (run exEnv 0 (bscan true .d ⟨3, false⟩ (.reg ⟨1, false⟩)) exSt) 0 0 = some (0x2FF#32, 0x80#8, 0x847#32) := by decide +kernel
-- SETB byte [0x2000], SETZ BH, CMOVB, CMOVZ; SETB at 0x3000 faults and CMOVZ reads it
example : exOut (run exEnv 0 (setcc .b (.mem (exEa 0x2000#32))) exSt) 0 0x2000#32 = some (0x2FF#32, 1#8, 0x807#32) := by decide +kernel
example : exOut (run exEnv 0 (setcc .z (.reg ⟨0, true⟩)) exSt) 0 0 = some (0xFF#32, 0x80#8, 0x807#32) := by decide +kernel
example : exOut (run exEnv 0 (cmovcc .b .d ⟨3, false⟩ (.reg ⟨0, false⟩)) exSt) 3 0 = some (0x2FF#32, 0x80#8, 0x807#32) := by decide +kernel
example : exOut (run exEnv 0 (cmovcc .z .d ⟨3, false⟩ (.reg ⟨0, false⟩)) exSt) 3 0 = some (1#32, 0x80#8, 0x807#32) := by decide +kernel
example : exOut (run exEnv 0 (setcc .b (.mem (exEa 0x3000#32))) exSt) 0 0 = none := by decide +kernel
-- CMC, STD
example : exOut (run exEnv 0 cmc exSt) 0 0 = some (0x2FF#32, 0x80#8, 0x806#32) := by decide +kernel
example : exOut (run exEnv 0 std exSt) 0 0 = some (0x2FF#32, 0x80#8, 0xC07#32) := by decide +kernel
-- XLAT at base 0x1000: byte 0x80; the hypothesis holds
example : exOut (run exEnv 0 (xlat true (some 0x1000#32)) exSt) 0 0 = some (0x280#32, 0x80#8, 0x807#32) := by decide +kernel
example : xlatAddr true (some 0x1000#32) exSt.g = 0x1100#32 ∧ (rdG exSt.g .w ⟨3, false⟩).toNat + (rdG exSt.g .b ⟨0, false⟩).toNat < 65536 := by decide +kernel
-- BOUND EBX with bounds 0x80808080, 0x80808080: 1 is above the upper one
example : (match run exEnv 0 (bound .d ⟨3, false⟩ (exEa 0x2000#32)) exSt with | .next k _ => some k | _ => none) = some 0 := by decide +kernel

end Verif.Emit
