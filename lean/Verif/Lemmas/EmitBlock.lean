import Verif.Spec.EmitBlock
import Verif.Props.EmitMov
import Verif.Props.EmitStr
import Verif.Props.EmitMul
import Verif.Props.EmitShift
import Verif.Props.EmitFlag
/-
Every instruction of a block keeps its contract: the theorems of C82, C84, C95, C97, C98 and C102 in one form.
-/
namespace Verif.Emit
open Host Guest
open Spec
open Flags

/-- `d` is how an instruction ends from `h`: it runs iff `A`, and then does `Q`; `r`: a fault leaves everything as it was. -/
def Contract (e : Env) (h : Host.St) (d : Done) (A : Prop) (Q : G → Prop) (r : Bool) : Prop :=
  (A → ∃ h', d = .next h' ∧ h'.r .rcx = e.ctx ∧ Q h'.g) ∧ (¬ A → ∃ g', d = .fault g' ∧ g'.fl = h.g.fl ∧ (r = true → g' = h.g))

theorem pack {e : Env} {h : Host.St} {o : Out} {A : Prop} {Q : G → Prop} {r : Bool}
    (h1 : A → ∃ h', o = .next 0 h' ∧ h'.r .rcx = e.ctx ∧ Q h'.g) (h2 : ¬ A → o = .fault h.g) : Contract e h (Done.ofRun o) A Q r := by
  refine ⟨fun a => ?_, fun a => ?_⟩
  · obtain ⟨h', g1, g2, g3⟩ := h1 a
    exact ⟨h', by rw [g1]; rfl, g2, g3⟩
  · rw [h2 a]; exact ⟨h.g, rfl, rfl, fun _ => rfl⟩

theorem packB {e : Env} {h : Host.St} {o : Out} {b : Bool} {Q : G → Prop} {r : Bool}
    (h1 : b = true → ∃ h', o = .next 0 h' ∧ h'.r .rcx = e.ctx ∧ Q h'.g) (h2 : b = false → o = .fault h.g) :
    Contract e h (Done.ofRun o) (b = true) Q r :=
  pack h1 fun n => h2 (Bool.eq_false_iff.2 n)

/-- The code with any r/m operand. -/
def MemInsn.codeRm (i : MemInsn) : Rm → List I
  | .reg r => i.codeReg r
  | .mem a => i.code a

theorem dst_eq (rm : Rm) (f : Form) : dst rm f = dstOf (ofRm rm) f := by cases f <;> rfl
theorem src_eq (rm : Rm) (f : Form) : src rm f = srcOf (ofRm rm) f := by cases f <;> rfl

theorem packD {e : Env} {h : Host.St} {o : Out} {A B : Prop} {Q : G → Prop} {r : Bool} (ha : A → ¬ B → ∃ h' : Host.St, o = .next 0 h' ∧ h'.r .rcx = e.ctx ∧ h'.g = h.g)
    (hb : A → B → ∃ h' : Host.St, o = .next 1 h' ∧ h'.r .rcx = e.ctx ∧ Q h'.g) (hn : ¬ A → o = .fault h.g) :
    Contract e h (Done.ofBound o) (A ∧ B) Q r := by
  refine ⟨fun a => ?_, fun a => ?_⟩
  · obtain ⟨h', g1, g2, g3⟩ := hb a.1 a.2
    exact ⟨h', by rw [g1]; rfl, g2, g3⟩
  · by_cases h1 : A
    · obtain ⟨h', g1, -, g3⟩ := ha h1 fun h2 => a ⟨h1, h2⟩
      exact ⟨h.g, by rw [g1, ← g3]; rfl, rfl, fun _ => rfl⟩
    · exact ⟨h.g, by rw [hn h1]; rfl, rfl, fun _ => rfl⟩

theorem not_both {A B : Prop} [Decidable A] (h : ¬ (¬ A ∧ B)) : A ∨ ¬ B := by
  by_cases ha : A
  · exact .inl ha
  · exact .inr fun hb => h ⟨ha, hb⟩

theorem div_all {e : Env} {h : Host.St} (hc : h.r .rcx = e.ctx) (sg : Bool) {z : Sz} (hz : z ≠ .q) (eip : BitVec 64) (rm : Rm)
    (hne : sg = true → ¬ (z ≠ .b ∧ dividend true z h.g = -2 ^ (2 * z.bits - 1) ∧ asInt true ((ofRm rm).get h.g z) = -1)) :
    ((ofRm rm).ok e z false = true → ¬ (asInt sg ((ofRm rm).get h.g z) ≠ 0 ∧
        fits sg z.bits ((dividend sg z h.g).tdiv (asInt sg ((ofRm rm).get h.g z)))) →
      ∃ h' : Host.St, run e 0 (Emit.div sg z eip rm) h = .next 0 h' ∧ h'.r .rcx = e.ctx ∧ h'.g = h.g) ∧
    ((ofRm rm).ok e z false = true → asInt sg ((ofRm rm).get h.g z) ≠ 0 ∧
        fits sg z.bits ((dividend sg z h.g).tdiv (asInt sg ((ofRm rm).get h.g z))) →
      ∃ h' : Host.St, run e 0 (Emit.div sg z eip rm) h = .next 1 h' ∧ h'.r .rcx = e.ctx ∧
        Effect e h.g h'.g (ofRm rm) (.div sg z eip)) ∧
    (¬ (ofRm rm).ok e z false = true → run e 0 (Emit.div sg z eip rm) h = .fault h.g) := by
  cases sg with
  | false =>
    obtain ⟨a, b, c⟩ := C102_div hc hz eip rm
    exact ⟨fun x y => a x (not_both y), b, fun x => c (Bool.eq_false_iff.2 x)⟩
  | true =>
    obtain ⟨a, b, c⟩ := C102_idiv_partial hc hz eip rm (hne rfl)
    exact ⟨fun x y => a x (not_both y), b, fun x => c (Bool.eq_false_iff.2 x)⟩

/-- XCHG with memory. -/
def isXchgMem : MemInsn → Rm → Bool
  | .xchg _ _, .mem _ => true
  | _, _ => false

theorem rm_contract (i : MemInsn) (rm : Rm) {e : Env} {h : Host.St} (hs : Sizes e i) (hr : (∃ r, rm = .reg r) → memOnly i = false)
    (hb : (∃ a, rm = .mem a) → bitFromReg i = false)
    (hc : h.r .rcx = e.ctx) (hcl : Clean h.g.fl) :
    Contract e h (Done.of i (run e 0 (i.codeRm rm) h)) (Allowed e h.g (ofRm rm) i) (fun g' => Effect e h.g g' (ofRm rm) i)
      (!isXchgMem i rm) := by
  cases i with
  | alu o z f =>
    have := C82_alu o hs e h hc hcl rm f
    rw [dst_eq, src_eq] at this
    cases rm <;> exact packB this.1 this.2
  | incDec inc z =>
    have := C82_inc_dec inc hs e h hc hcl rm
    cases rm <;> exact packB this.1 this.2
  | neg z =>
    have := C82_neg hs e h hc hcl rm
    cases rm <;> exact packB this.1 this.2
  | not z =>
    have := C82_not z e h hc rm
    cases rm <;> exact packB this.1 this.2
  | xadd z src =>
    have := C82_xadd hs e h hc hcl src rm
    cases rm <;> exact packB this.1 this.2
  | xchg z src =>
    have := C82_xchg_partial z e h hc src rm
    cases rm with
    | reg r => exact packB this.1 (fun hn => absurd hn (by simp [allowed, ofRm, Opd.ok]))
    | mem a =>
      by_cases h0 : (ofRm (.mem a)).ok e z false = true
      · refine ⟨fun ha => ?_, fun ha => ?_⟩
        · obtain ⟨h', g1, g2, g3⟩ := this.1 ha
          exact ⟨h', by show Done.ofRun (run e 0 (xchg z src (.mem a)) h) = _; rw [g1]; rfl, g2, g3⟩
        · have hw : e.ok a z.bytes true = false := by
            refine Bool.eq_false_iff.2 fun hw => ha ?_
            have h0' : e.ok a z.bytes false = true := h0
            show allowed e z true (.mem a) (.reg src) = true
            simp [allowed, Opd.ok, h0', hw]
          have := C82_xchg_fault_violation hc src a h0 hw
          refine ⟨_, by show Done.ofRun (run e 0 (xchg z src (.mem a)) h) = _; rw [this]; rfl, ?_, fun hn => (by cases hn)⟩
          rfl
      · refine ⟨fun ha => ?_, fun _ => ?_⟩
        · exact absurd (show (ofRm (.mem a)).ok e z false = true by
            have ha' : allowed e z true (.mem a) (.reg src) = true := ha
            unfold allowed at ha'
            simp only [Bool.and_eq_true] at ha'
            exact ha'.1.1) h0
        · refine ⟨h.g, by show Done.ofRun (run e 0 (xchg z src (.mem a)) h) = _; rw [this.2 (Bool.eq_false_iff.2 h0)]; rfl, rfl, fun _ => rfl⟩
  | cmpxchg z src =>
    have := C82_cmpxchg_partial hs e h hc hcl src rm
    have h1 : allowed e z ((ofRm rm).get h.g z == rdG h.g z acc) (ofRm rm) (.reg src) = true →
        ∃ h', run e 0 (Emit.cmpxchg z src rm) h = .next 0 h' ∧ h'.r .rcx = e.ctx ∧ Effect e h.g h'.g (ofRm rm) (.cmpxchg z src) := fun ha => by
      obtain ⟨h', g1, g2, g3, _, g5⟩ := this.1 ha
      exact ⟨h', g1, g2, g3, g5⟩
    cases rm <;> exact packB h1 this.2
  | cmpxchg8b =>
    cases rm with
    | reg r => exact absurd (hr ⟨r, rfl⟩) (by decide)
    | mem a =>
      have := C82_cmpxchg8b e h hc hcl a
      exact packB this.1 this.2
  | mul z =>
    have := C84_mul false hs e h hc hcl rm
    cases rm <;> exact packB this.1 this.2
  | imul1 z =>
    have := C84_mul true hs e h hc hcl rm
    cases rm <;> exact packB this.1 this.2
  | imul2 z d =>
    have := C84_imul hs e h hc hcl d rm none
    have h1 : (ofRm rm).ok e z false = true → ∃ h', run e 0 (Emit.imul2 z d rm) h = .next 0 h' ∧ h'.r .rcx = e.ctx ∧
        Effect e h.g h'.g (ofRm rm) (.imul2 z d) := fun ha => by
      obtain ⟨h', g1, g2, p, rfl, g3, g4⟩ := this.1 ha
      exact ⟨h', g1, g2, g3, g4⟩
    cases rm <;> exact packB h1 this.2
  | imul3 z d v =>
    have := C84_imul hs e h hc hcl d rm (some v)
    have h1 : (ofRm rm).ok e z false = true → ∃ h', run e 0 (Emit.imul3 z d rm v) h = .next 0 h' ∧ h'.r .rcx = e.ctx ∧
        Effect e h.g h'.g (ofRm rm) (.imul3 z d v) := fun ha => by
      obtain ⟨h', g1, g2, p, rfl, g3, g4⟩ := this.1 ha
      exact ⟨h', g1, g2, g3, g4⟩
    cases rm <;> exact packB h1 this.2
  | movx sg zd zs d =>
    have := C84_movx (zd := zd) (zs := zs) sg e h hc d rm
    cases rm <;> exact packB this.1 this.2
  | bscan rv z d =>
    have := C84_scan (z := z) rv e h hc hcl d rm
    have h1 : (ofRm rm).ok e z false = true → ∃ h', run e 0 (Emit.bscan rv z d rm) h = .next 0 h' ∧ h'.r .rcx = e.ctx ∧
        Effect e h.g h'.g (ofRm rm) (.bscan rv z d) := fun ha => by
      obtain ⟨h', v, g1, g2, g3⟩ := this.1 ha
      exact ⟨h', g1, g2, v, g3⟩
    cases rm <;> exact packB h1 this.2
  | setcc c =>
    have := C84_setcc c e h hc hcl rm
    cases rm <;> exact packB this.1 this.2
  | cmovcc c z d =>
    have := C84_cmovcc c hs e h hc hcl d rm
    cases rm <;> exact packB this.1 this.2
  | bound z d =>
    cases rm with
    | reg r => exact absurd (hr ⟨r, rfl⟩) (by simp [memOnly])
    | mem a =>
      have := C84_bound hs e h hc d a
      by_cases ho : e.ok a z.bytes false = true ∧ e.ok (a + BitVec.ofNat 32 z.bytes) z.bytes false = true
      · obtain ⟨h', k, g1, g2, g3, gk, gi⟩ := this.1 ho.1 ho.2
        rcases gk with rfl | rfl
        · have hi := gi.1 rfl
          refine ⟨fun ha => ?_, fun _ => ⟨h.g, ?_, rfl, fun _ => rfl⟩⟩
          · obtain ⟨_, _, b1, b2⟩ := ha
            exfalso
            rcases hi with hi | hi
            · exact absurd hi (Int.not_lt.2 b1)
            · exact absurd hi (Int.not_lt.2 b2)
          · show Done.ofBound (run e 0 (Emit.bound z d a) h) = _
            rw [g1, ← g3]; rfl
        · have hi := mt gi.2 (by omega)
          refine ⟨fun _ => ⟨h', ?_, g2, g3⟩, fun hn => ?_⟩
          · show Done.ofBound (run e 0 (Emit.bound z d a) h) = _
            rw [g1]; rfl
          · exfalso
            refine hn ⟨ho.1, ho.2, ?_, ?_⟩
            · exact Int.not_lt.1 fun x => hi (.inl x)
            · exact Int.not_lt.1 fun x => hi (.inr x)
      · refine ⟨fun ha => absurd ⟨ha.1, ha.2.1⟩ ho, fun _ => ⟨h.g, ?_, rfl, fun _ => rfl⟩⟩
        have h2 := this.2 (by
          by_cases h1 : e.ok a z.bytes false = true
          · exact .inr (Bool.eq_false_iff.2 fun h2 => ho ⟨h1, h2⟩)
          · exact .inl (Bool.eq_false_iff.2 h1))
        show Done.ofBound (run e 0 (Emit.bound z d a) h) = _
        rw [h2]; rfl
  | shift k z n =>
    have := C95_shift hs e h hc hcl k rm n
    by_cases h0 : count h.g n = 0
    · have h1 : Allowed e h.g (ofRm rm) (.shift k z n) → ∃ h', run e 0 (shiftCode k z rm n) h = .next 0 h' ∧ h'.r .rcx = e.ctx ∧
          Effect e h.g h'.g (ofRm rm) (.shift k z n) := fun _ => by
        obtain ⟨h', g1, g2, g3⟩ := this.1 h0
        exact ⟨h', g1, g2, fun _ => g3, fun hn => absurd h0 hn⟩
      have h2 : ¬ Allowed e h.g (ofRm rm) (.shift k z n) → run e 0 (shiftCode k z rm n) h = .fault h.g := fun hn =>
        absurd (show Allowed e h.g (ofRm rm) (.shift k z n) from fun hx => absurd h0 hx) hn
      cases rm <;> exact pack h1 h2
    · have h1 : Allowed e h.g (ofRm rm) (.shift k z n) → ∃ h', run e 0 (shiftCode k z rm n) h = .next 0 h' ∧ h'.r .rcx = e.ctx ∧
          Effect e h.g h'.g (ofRm rm) (.shift k z n) := fun ha => by
        obtain ⟨h', r, g1, g2, g3⟩ := (this.2 h0).1 (ha h0)
        exact ⟨h', g1, g2, fun hn => absurd hn h0, fun _ => ⟨r, g3⟩⟩
      have h2 : ¬ Allowed e h.g (ofRm rm) (.shift k z n) → run e 0 (shiftCode k z rm n) h = .fault h.g := fun hn =>
        (this.2 h0).2 (Bool.eq_false_iff.2 fun hx => hn fun _ => hx)
      cases rm <;> exact pack h1 h2
  | movRmR z s =>
    have := C98_mov_store z e h hc s rm
    cases rm <;> exact packB this.1 this.2
  | movRRm z d =>
    have := C98_mov_load z e h hc d rm
    cases rm <;> exact packB this.1 this.2
  | movToMoffs z =>
    cases rm with
    | reg r => exact absurd (hr ⟨r, rfl⟩) (by simp [memOnly])
    | mem a =>
      have := C98_mov_moffs z e h hc a
      exact packB this.1 this.2
  | movImm z v =>
    have := C98_mov_imm z e h hc v rm
    cases rm <;> exact packB this.1 this.2
  | movRmSel s =>
    have := C98_mov_sel_partial e h hc s
    cases rm with
    | reg r => exact packB (fun _ => this.1 r) (fun hn => by cases hn)
    | mem a => exact packB (this.2 a).1 (this.2 a).2
  | movSelRm z => exact hs.elim
  | lea z d =>
    cases rm with
    | reg r => exact absurd (hr ⟨r, rfl⟩) (by simp [memOnly])
    | mem a =>
      refine pack (fun _ => ?_) (fun hn => absurd trivial hn)
      show ∃ h', run e 0 (Emit.lea z d a) h = .next 0 h' ∧ h'.r .rcx = e.ctx ∧ h'.g = wrG h.g z d (a.lin.setWidth z.bits)
      unfold lea
      hexec' [hc]
      refine ⟨_, rfl, ?_⟩
      hexec' [hc]
      exact ⟨trivial, by rw [rd_wr_d]⟩
  | push s z =>
    cases rm with
    | reg r =>
      have := C98_push hs.1 e h hc hs.2 (.reg r)
      exact pack (fun ha => this.1 (by simp only [PushOp.ok, Bool.true_and]; exact ha.2)) fun hn =>
        this.2 (Bool.eq_false_iff.2 fun hx => hn ⟨rfl, by simpa only [PushOp.ok, Bool.true_and] using hx⟩)
    | mem a =>
      have := C98_push hs.1 e h hc hs.2 (.mem a)
      exact pack (fun ha => this.1 (by rw [Bool.and_eq_true]; exact ha)) fun hn =>
        this.2 (Bool.eq_false_iff.2 fun hx => hn (by rw [Bool.and_eq_true] at hx; exact hx))
  | pop s z =>
    cases rm with
    | reg r =>
      have := C98_pop hs.1 e h hc hs.2 r
      refine pack (fun ha => ?_) fun hn => this.2 (Bool.eq_false_iff.2 fun hx => hn ⟨hx, rfl⟩)
      obtain ⟨h', g1, a1, a2, a3, a4⟩ := this.1 ha.1
      exact ⟨h', a1, a2, g1, a3, a4⟩
    | mem a =>
      have := C98_pop_mem_partial hs.1 e h hc hs.2 a
      refine pack (fun ha => ?_) fun hn => this.2 (Bool.eq_false_iff.2 fun hx => hn (by rw [Bool.and_eq_true] at hx; exact hx))
      obtain ⟨h', a1, a2, a3⟩ := this.1 (by rw [Bool.and_eq_true]; exact ha)
      refine ⟨h', a1, a2, { h'.g with mem := h.g.mem }, ⟨a3.off, a3.high, a3.regs, a3.flags, rfl⟩, ?_⟩
      have hl : (BitVec.ofNat z.bits (load h.g.mem (slot e (spOff s h.g)) z.bytes)).toNat = load h.g.mem (slot e (spOff s h.g)) z.bytes := by
        rw [BitVec.toNat_ofNat]
        apply Nat.mod_eq_of_lt
        have := load_lt h.g.mem (slot e (spOff s h.g)) z.bytes
        rcases hs.1 with rfl | rfl <;> exact this
      have hm := a3.mem
      show h'.g = (⟨h'.g.gpr, h'.g.fl, store h.g.mem a.lin z.bytes (BitVec.ofNat z.bits (load h.g.mem (slot e (spOff s h.g)) z.bytes)).toNat⟩ : G)
      rw [hl, ← hm]
  | bit k z n =>
    have hn : (∃ r, rm = .reg r) ∨ (∃ v, n = .imm v) ∨ bitGiven h.g z n < z.bits := by
      cases rm with
      | reg r => exact .inl ⟨r, rfl⟩
      | mem a =>
        cases n with
        | imm v => exact .inr (.inl ⟨v, rfl⟩)
        | reg r => exact absurd (hb ⟨a, rfl⟩) (by simp [bitFromReg])
    have := C102_bit_partial hc hcl k hs n rm hn
    have h1 : Allowed e h.g (ofRm rm) (.bit k z n) → ∃ h', run e 0 (Emit.bit k z n rm) h = .next 0 h' ∧ h'.r .rcx = e.ctx ∧
        Effect e h.g h'.g (ofRm rm) (.bit k z n) := fun ha => by
      obtain ⟨h', y, g1, g2, g3⟩ := this.1 ha
      exact ⟨h', g1, g2, y, g3⟩
    cases rm <;> exact pack h1 this.2
  | div sg z eip =>
    have hne : sg = true → ¬ (z ≠ .b ∧ dividend true z h.g = -2 ^ (2 * z.bits - 1) ∧ asInt true ((ofRm rm).get h.g z) = -1) :=
      fun h1 h2 => h2.1 (hs.2 h1)
    have := div_all hc sg hs.1 eip rm hne
    cases rm <;> exact packD this.1 this.2.1 this.2.2

/-! The flags word of cpu_ctx keeps no arithmetic flag. -/

theorem set_fl (g : G) (z : Sz) (v : BitVec z.bits) (p : Opd) : (p.set g z v).fl = g.fl := by cases p <;> rfl
theorem setWide_fl (g : G) (z : Sz) (p : Int) : (setWide g z p).fl = g.fl := by unfold setWide; split <;> rfl
theorem clean_of {f f' : Flags.St} (h : f'.eflags = f.eflags) (hc : Clean f) : Clean f' := by unfold Clean; rw [h]; exact hc
theorem clean_fl {f f' : Flags.St} (h : f' = f) (hc : Clean f) : Clean f' := by rw [h]; exact hc

theorem effect_clean {e : Env} {g g' : G} {p : Opd} {i : MemInsn} (he : Effect e g g' p i) (hc : Clean g.fl) : Clean g'.fl := by
  cases i with
  | alu o z f =>
    refine clean_of ?_ hc
    rw [he.1.2.2]
    split <;> simp only [set_fl]
  | incDec inc z => exact clean_of (by rw [he.1.2.2, set_fl]) hc
  | neg z => exact clean_of (by rw [he.1.2.2, set_fl]) hc
  | not z => exact clean_fl (by rw [show g' = _ from he, set_fl]) hc
  | xadd z src => exact clean_of (by rw [he.1.2.2, set_fl, set_fl]) hc
  | xchg z src => exact clean_fl (by rw [show g' = _ from he, set_fl, set_fl]) hc
  | cmpxchg z src =>
    refine clean_of ?_ hc
    rw [he.1.2.2]
    split <;> simp only [set_fl, wrG_fl]
  | cmpxchg8b =>
    by_cases h : p.get g .q = g.gpr 2 ++ g.gpr 0
    · exact clean_of (by rw [(he.1 h).1.2.2, set_fl]) hc
    · exact clean_of (he.2 h).2.2.2.1 hc
  | mul z => exact clean_of (by rw [he.1.2.2, setWide_fl]) hc
  | imul1 z => exact clean_of (by rw [he.1.2.2, setWide_fl]) hc
  | imul2 z d => exact clean_of (by rw [he.1.2.2, wrG_fl]) hc
  | imul3 z d v => exact clean_of (by rw [he.1.2.2, wrG_fl]) hc
  | movx sg zd zs d => exact clean_fl (by rw [show g' = _ from he, wrG_fl]) hc
  | bscan rv z d =>
    obtain ⟨v, h1, _⟩ := he
    exact clean_of (by rw [h1.2.2, wrG_fl]) hc
  | setcc c => exact clean_fl (by rw [show g' = _ from he, set_fl]) hc
  | cmovcc c z d =>
    refine clean_fl ?_ hc
    rw [show g' = _ from he]
    split <;> simp only [wrG_fl]
  | bound z d => exact clean_fl (by rw [show g' = g from he]) hc
  | shift k z n =>
    by_cases h : count g n = 0
    · exact clean_fl (by rw [he.1 h]) hc
    · obtain ⟨r, h1, _⟩ := he.2 h
      exact clean_of (by rw [h1.2.2, set_fl]) hc
  | movRmR z s => exact clean_fl (by rw [show g' = _ from he, set_fl]) hc
  | movRRm z d => exact clean_fl (by rw [show g' = _ from he, wrG_fl]) hc
  | movToMoffs z => exact clean_fl (by rw [show g' = _ from he, set_fl]) hc
  | movImm z v => exact clean_fl (by rw [show g' = _ from he, set_fl]) hc
  | movRmSel s => cases p with
    | reg r => exact clean_fl (by rw [show g' = _ from he, wrG_fl]) hc
    | mem a => exact clean_fl (by rw [show g' = _ from he, set_fl]) hc
    | imm v => exact clean_fl (by rw [show g' = _ from he, set_fl]) hc
  | movSelRm z => exact he.elim
  | lea z d => cases p with
    | mem a => exact clean_fl (by rw [show g' = _ from he, wrG_fl]) hc
    | reg r => exact he.elim
    | imm v => exact he.elim
  | push s z => exact clean_fl he.flags hc
  | pop s z =>
    obtain ⟨g1, h1, h2⟩ := he
    exact clean_fl (by rw [h2, set_fl, h1.flags]) hc
  | bit k z n =>
    obtain ⟨y, -, -, -, h1, -⟩ := he
    exact clean_of h1 hc
  | div sg z eip =>
    refine clean_fl ?_ hc
    rw [show g' = _ from he]
    unfold setDiv
    split <;> simp only [wrG_fl]

theorem gives_clean {e : Env} {g g' : G} {i : Insn} (hi : ∀ x, i ≠ .str x) (he : Gives e g g' i) (hc : Clean g.fl) : Clean g'.fl := by
  cases i with
  | rm i o => obtain ⟨p, _, h⟩ := he; exact effect_clean h hc
  | cbw => exact clean_fl (by rw [show g' = _ from he, wrG_fl]) hc
  | cwde => exact clean_fl (by rw [show g' = _ from he, wrG_fl]) hc
  | cwd => exact clean_fl (by rw [show g' = _ from he, wrG_fl]) hc
  | cdq => exact clean_fl (by rw [show g' = _ from he, wrG_fl]) hc
  | bswap i => obtain ⟨v, h, _⟩ := he; exact clean_fl (by rw [h, wrG_fl]) hc
  | clc => exact clean_of he.1.2.2 hc
  | stc => exact clean_of he.1.2.2 hc
  | cmc => exact clean_of he.1.2.2 hc
  | cld =>
    have h : g'.fl.eflags = g.fl.eflags &&& ~~~0x400#32 := by rw [show g' = _ from he]
    unfold Clean at hc ⊢
    rw [h, BitVec.and_assoc, show ~~~0x400#32 &&& 0x8D5#32 = 0x8D5#32 from rfl, hc]
  | std =>
    have h : g'.fl.eflags = g.fl.eflags ||| 0x400#32 := by rw [show g' = _ from he]
    unfold Clean at hc ⊢
    rw [h]
    generalize g.fl.eflags = x at hc ⊢
    have : (x ||| 0x400#32) &&& 0x8D5#32 = x &&& 0x8D5#32 := by bits32
    rw [this, hc]
  | xchgAcc z r => exact clean_fl (by rw [show g' = _ from he, wrG_fl, wrG_fl]) hc
  | pushImm s z v => exact clean_fl he.flags hc
  | pushSel s z i => exact clean_fl he.flags hc
  | leave s z =>
    obtain ⟨g1, h1, h2⟩ := he
    exact clean_fl (by rw [h2, wrG_fl, h1.flags]) hc
  | pusha s z => exact clean_fl he.1.flags hc
  | popa s z => exact clean_fl he.2.2.2.1 hc
  | str x => exact absurd rfl (hi x)
  | lahf => exact clean_fl (by rw [show g' = _ from he, wrG_fl]) hc
  | sahf => exact clean_of he.1.2.2 hc
  | aaa => exact clean_of he.1.system hc
  | aas => exact clean_of he.1.system hc
  | aad v => exact clean_of he.1.system hc
  | aam v => exact clean_of he.1.system hc
  | daaDas sum => exact clean_of he.1.system hc
  | pushf s z vme =>
    obtain ⟨v, -, h1⟩ := he
    exact clean_fl h1.flags hc

theorem packE {e : Env} {l : List I} {h : Host.St} {g : G} {Q : G → Prop} {r : Bool} (he : Ends e l h g) (hc : h.r .rcx = e.ctx) (hq : Q g) :
    Contract e h (Done.ofRun (run e 0 l h)) True Q r := by
  obtain ⟨h', h1, h3, h2⟩ := he
  exact pack (fun _ => ⟨h', h1, h2, h3 ▸ hq⟩) fun hn => absurd trivial hn

/-- Every instruction of a block that is not a string instruction keeps its contract. -/
theorem exec_contract (i : Insn) (hi : ∀ x, i ≠ .str x) {e : Env} {h : Host.St} (hl : Legal e i) (hc : h.r .rcx = e.ctx) (hcl : Clean h.g.fl) :
    Contract e h (exec e h i) (Runs e h.g i) (fun g' => Gives e h.g g' i) (restarts i) := by
  cases i with
  | rm i o =>
    cases o with
    | reg r =>
      have := rm_contract i (.reg r) hl.1 (fun _ => hl.2) (fun ⟨a, hx⟩ => by cases hx) hc hcl
      refine ⟨fun ⟨p, hp, ha⟩ => ?_, fun hn => ?_⟩
      · obtain rfl : p = .reg r := hp
        obtain ⟨h', a1, a2, a3⟩ := this.1 ha
        exact ⟨h', a1, a2, _, rfl, a3⟩
      · obtain ⟨g', a1, a2, a3⟩ := this.2 fun ha => hn ⟨_, rfl, ha⟩
        exact ⟨g', a1, a2, fun _ => a3 (by cases i <;> rfl)⟩
    | mem m =>
      obtain ⟨a, ha, hr⟩ := C97_operand i hc m hl.2.1
      have := rm_contract i (.mem a) hl.1 (fun ⟨r, hx⟩ => by cases hx) (fun _ => hl.2.2.2) hc hcl
      have hx : exec e h (.rm i (.mem m)) = Done.of i (run e 0 (i.codeRm (.mem a)) h) := congrArg (Done.of i) (hr _)
      rw [hx]
      refine ⟨fun ⟨p, ⟨b, hb, hp⟩, hal⟩ => ?_, fun hn => ?_⟩
      · obtain rfl := address_unique ha hb
        subst hp
        obtain ⟨h', a1, a2, a3⟩ := this.1 hal
        exact ⟨h', a1, a2, _, ⟨a.lin, hb, rfl⟩, a3⟩
      · obtain ⟨g', a1, a2, a3⟩ := this.2 fun hal => hn ⟨_, ⟨a.lin, ha, rfl⟩, hal⟩
        refine ⟨g', a1, a2, fun hres => a3 ?_⟩
        cases i <;> first | rfl | cases hres
  | cbw => exact packE (C84_convert e h hc).1 hc rfl
  | cwde => exact packE (C84_convert e h hc).2.1 hc rfl
  | cwd => exact packE (C84_convert e h hc).2.2.1 hc rfl
  | cdq => exact packE (C84_convert e h hc).2.2.2 hc rfl
  | bswap i => exact pack (fun _ => C84_bswap e h hc i) fun hn => absurd trivial hn
  | clc => exact pack (fun _ => (C84_flags e h hc hcl).1) fun hn => absurd trivial hn
  | stc => exact pack (fun _ => (C84_flags e h hc hcl).2.1) fun hn => absurd trivial hn
  | cmc => exact pack (fun _ => (C84_flags e h hc hcl).2.2.1) fun hn => absurd trivial hn
  | cld => exact pack (fun _ => (C84_flags e h hc hcl).2.2.2.1) fun hn => absurd trivial hn
  | std => exact pack (fun _ => (C84_flags e h hc hcl).2.2.2.2) fun hn => absurd trivial hn
  | xchgAcc z r => exact pack (fun _ => C82_xchg_acc z e h hc r) fun hn => absurd trivial hn
  | pushImm s z v =>
    have := C98_push hl.1 e h hc hl.2 (.imm v)
    simp only [PushOp.ok, Bool.true_and] at this
    exact packB this.1 this.2
  | pushSel s z i =>
    have := C98_push hl.1 e h hc hl.2 (.sel i)
    simp only [PushOp.ok, Bool.true_and] at this
    exact packB this.1 this.2
  | leave s z =>
    have := C98_leave_partial hl.1 e h hc hl.2
    refine ⟨fun ha => ?_, fun hn => ?_⟩
    · obtain ⟨h', g1, a1, a2, a3, a4⟩ := this.1 ha
      exact ⟨h', by show Done.ofRun (run e 0 (Emit.leave s z) h) = _; rw [a1]; rfl, a2, g1, a3, a4⟩
    · obtain ⟨g1, a1, a2⟩ := this.2 (Bool.eq_false_iff.2 hn)
      exact ⟨g1, by show Done.ofRun (run e 0 (Emit.leave s z) h) = _; rw [a1]; rfl, a2.flags, fun hr => (by cases hr)⟩
  | pusha s z =>
    have := C98_pusha hl.1 e h hc hl.2
    refine ⟨fun ha => ?_, fun hn => ?_⟩
    · obtain ⟨h', a1, a2, a3, a4⟩ := this.1 ha
      exact ⟨h', by show Done.ofRun (run e 0 (Emit.pusha s z) h) = _; rw [a1]; rfl, a2, a3, a4⟩
    · obtain ⟨g1, a1, a2, a3⟩ := this.2 hn
      exact ⟨g1, by show Done.ofRun (run e 0 (Emit.pusha s z) h) = _; rw [a1]; rfl, a3, fun hr => (by cases hr)⟩
  | popa s z =>
    have := C98_popa hl.1 e h hc hl.2
    refine ⟨fun ha => ?_, fun hn => ?_⟩
    · obtain ⟨h', a1, a2, a3⟩ := this.1 ha
      exact ⟨h', by show Done.ofRun (run e 0 (Emit.popa s z) h) = _; rw [a1]; rfl, a2, a3⟩
    · obtain ⟨g1, a1, a2, a3, a4⟩ := this.2 hn
      exact ⟨g1, by show Done.ofRun (run e 0 (Emit.popa s z) h) = _; rw [a1]; rfl, a4, fun hr => (by cases hr)⟩
  | str x => exact absurd rfl (hi x)
  | lahf => exact pack (fun _ => C102_lahf hc hcl) fun hn => absurd trivial hn
  | sahf => exact pack (fun _ => C102_sahf hc hcl) fun hn => absurd trivial hn
  | aaa => exact pack (fun _ => C102_aaa hc hcl) fun hn => absurd trivial hn
  | aas => exact pack (fun _ => C102_aas hc hcl) fun hn => absurd trivial hn
  | aad v => exact pack (fun _ => C102_aad hc hcl v) fun hn => absurd trivial hn
  | aam v => exact pack (fun _ => C102_aam hc hcl v hl) fun hn => absurd trivial hn
  | daaDas sum => exact pack (fun _ => C102_daa_das hc hcl sum) fun hn => absurd trivial hn
  | pushf s z vme =>
    have := C102_pushf hc hl.2 hl.1.1 vme hl.1.2
    have h1 : e.ok (slot e (down s h.g z.bytes)) z.bytes true = true → ∃ h', run e 0 (Emit.pushf s z vme) h = .next 0 h' ∧ h'.r .rcx = e.ctx ∧
        Gives e h.g h'.g (.pushf s z vme) := fun ha => by
      obtain ⟨h', v, g1, g2, g3⟩ := this.1 ha
      exact ⟨h', g1, g2, v, g3⟩
    exact packB h1 this.2

/-- How the code of any instruction of a block ends. -/
theorem exec_ends (i : Insn) {e : Env} {h : Host.St} (hl : Legal e i) (hc : h.r .rcx = e.ctx) (hcl : Clean h.g.fl) :
    (∃ h', exec e h i = .next h' ∧ h'.r .rcx = e.ctx ∧ Runs e h.g i ∧ Gives e h.g h'.g i ∧ Clean h'.g.fl) ∨
    (∃ g', exec e h i = .fault g' ∧ Faults e h.g g' i) := by
  by_cases hi : ∃ x, i = .str x
  · obtain ⟨x, rfl⟩ := hi
    have hx : exec e h (.str x) = Done.ofRun (strExec e x (2 ^ 32) h) := rfl
    have hn : countOf x h.g ≤ 2 ^ 32 ∧ 0 < 2 ^ 32 :=
      ⟨Nat.le_trans (Nat.mod_le _ _) (Nat.le_of_lt (h.g.gpr 1).isLt), Nat.two_pow_pos 32⟩
    generalize 2 ^ 32 = N at hx hn
    rcases C101_string e x hl N h hc hcl hn with ⟨h', a1, a2, a3, a4⟩ | ⟨g', a1, a2, _⟩
    · exact .inl ⟨h', by rw [hx, a1]; rfl, a2, trivial, a3, a4⟩
    · exact .inr ⟨g', by rw [hx, a1]; rfl, a2⟩
  · have hi' : ∀ x, i ≠ .str x := fun x h => hi ⟨x, h⟩
    have hct := exec_contract i hi' hl hc hcl
    by_cases hr : Runs e h.g i
    · obtain ⟨h', a1, a2, a3⟩ := hct.1 hr
      exact .inl ⟨h', a1, a2, hr, a3, gives_clean hi' a3 hcl⟩
    · obtain ⟨g', a1, a2, a3⟩ := hct.2 hr
      refine .inr ⟨g', a1, ?_⟩
      cases i with
      | str x => exact absurd rfl (hi' x)
      | _ => exact ⟨hr, a3, a2⟩

end Verif.Emit
