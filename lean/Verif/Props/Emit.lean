import Verif.Lemmas.EmitX
import Verif.Spec.Emit
import Verif.Props.Flags
/-
C82: the host code emitted for the integer instructions implements them.
-/
namespace Verif.Emit
open Host Guest Spec
open Flags (Clean flags Width)
open Flags.Spec (addFlags subFlags LogicFlags)

/-- The lazy flags after an instruction. -/
def newFl {n : Nat} (o : Op) (s : Flags.St) (a b : BitVec n) : Flags.St :=
  match o.kind with
  | none => Flags.setFlags s (o.val s a b) 0#32
  | some k => arith k s a b (o.val s a b)

theorem rToRmMem_fault {z : Sz} {e : Env} {h : St} {op : Reg → Src → List I} (wd : Bool)
    (adr : Ea) (src : GReg) (hok : e.ok adr z.bytes false = false) (hc : h.r .rcx = e.ctx) :
    run e 0 (rToRmMem op z wd adr src) h = .fault h.g := by
  unfold rToRmMem
  cases wd <;> hexec [hc, hok, Bool.false_eq_true]
theorem rToRmFlagsMem_fault {z : Sz} {e : Env} {h : St} {op : Reg → Src → List I} (sum wd : Bool)
    (adr : Ea) (src : GReg) (hok : e.ok adr z.bytes false = false) (hc : h.r .rcx = e.ctx) :
    run e 0 (rToRmFlagsMem op sum z wd adr src) h = .fault h.g := by
  unfold rToRmFlagsMem
  cases wd <;> hexec [hc, hok, Bool.false_eq_true]
theorem rmToRMem_fault {z : Sz} {e : Env} {h : St} {op : Reg → Src → List I} (wd : Bool)
    (adr : Ea) (dst : GReg) (hok : e.ok adr z.bytes false = false) (hc : h.r .rcx = e.ctx) :
    run e 0 (rmToRMem op z wd dst adr) h = .fault h.g := by
  unfold rmToRMem
  hexec [hc, hok, Bool.false_eq_true]
theorem rmToRFlagsMem_fault {z : Sz} {e : Env} {h : St} {op : Reg → Src → List I} (sum wd : Bool)
    (adr : Ea) (dst : GReg) (hok : e.ok adr z.bytes false = false) (hc : h.r .rcx = e.ctx) :
    run e 0 (rmToRFlagsMem op sum z wd dst adr) h = .fault h.g := by
  unfold rmToRFlagsMem
  hexec [hc, hok, Bool.false_eq_true]
theorem immToMem_fault {z : Sz} {e : Env} {h : St} {op : Reg → Src → List I} (wd : Bool)
    (adr : Ea) (v : BitVec 64) (hok : e.ok adr z.bytes false = false) (hc : h.r .rcx = e.ctx) :
    run e 0 (immToMem op z wd adr v) h = .fault h.g := by
  unfold immToMem
  cases wd <;> hexec [hc, hok, Bool.false_eq_true]
theorem immToMemFlags_fault {z : Sz} {e : Env} {h : St} {op : Reg → Src → List I} (sum wd : Bool)
    (adr : Ea) (v : BitVec 64) (hok : e.ok adr z.bytes false = false) (hc : h.r .rcx = e.ctx) :
    run e 0 (immToMemFlags op sum z wd adr v) h = .fault h.g := by
  unfold immToMemFlags
  cases wd <;> hexec [hc, hok, Bool.false_eq_true]

/-- What a run must do: all accesses allowed and the given state, or a fault and nothing changed. -/
def Does (e : Env) (l : List I) (h : St) (ok : Bool) (g : G) : Prop :=
  (ok = true → Ends e l h g) ∧ (ok = false → run e 0 l h = .fault h.g)

theorem does_reg {e : Env} {l : List I} {h : St} {g : G} {ok : Bool} (hk : ok = true) (he : Ends e l h g) :
    Does e l h ok g := ⟨fun _ => he, fun hf => by rw [hk] at hf; cases hf⟩

theorem does_load {e : Env} {l : List I} {h : St} {g : G} {ok k : Bool} (hk : ok = k)
    (he : k = true → Ends e l h g) (hf : k = false → run e 0 l h = .fault h.g) : Does e l h ok g := by
  subst hk; exact ⟨he, hf⟩

theorem does_store {e : Env} {l : List I} {h : St} {g : G} {ok k w : Bool} (hk : ok = (k && w))
    (he : k = true → (w = true → Ends e l h g) ∧ (w = false → run e 0 l h = .fault h.g))
    (hf : k = false → run e 0 l h = .fault h.g) : Does e l h ok g := by
  subst hk
  cases hk : k with
  | false => exact ⟨fun h => (by cases h), fun _ => hf hk⟩
  | true =>
    rw [Bool.true_and]
    exact he hk

/-- The state after a two-operand instruction. -/
def after (o : Op) (z : Sz) (g : G) (d s : Opd) : G :=
  { (if o.writes then d.set g z (o.val g.fl (d.get g z) (s.get g z)) else g) with
    fl := newFl o g.fl (d.get g z) (s.get g z) }

theorem emit_does (o : Op) {z : Sz} (hz : z ≠ .q) {e : Env} {h : St} (hc : h.r .rcx = e.ctx) (rm : Rm) (f : Form) :
    Does e (emit o z rm f) h (allowed e z o.writes (dst rm f) (src rm f)) (after o z h.g (dst rm f) (src rm f)) := by
  have ho := code_run e z o
  unfold after newFl emit
  cases hk : o.kind with
  | none =>
    cases rm with
    | reg r =>
      cases f with
      | rmR s => exact does_reg (by simp [allowed, dst, src, ofRm, Opd.ok]) (rToRmReg_run hz hc ho o.writes r s)
      | rRm d => exact does_reg (by simp [allowed, dst, src, ofRm, Opd.ok]) (rmToRReg_run hz hc ho o.writes d r)
      | rmImm v => exact does_reg (by simp [allowed, dst, src, ofRm, Opd.ok]) (immToReg_run hz hc ho o.writes r v)
    | mem a =>
      cases f with
      | rRm d =>
        exact does_load (k := e.ok a z.bytes false) (by simp [allowed, dst, src, ofRm, Opd.ok])
          (fun k => rmToRMem_run hz hc ho o.writes d a k) (fun k => rmToRMem_fault _ a d k hc)
      | rmR s =>
        cases hw : o.writes with
        | false =>
          exact does_load (k := e.ok a z.bytes false) (by simp [allowed, dst, src, ofRm, Opd.ok])
            (fun k => rToRmMem_nw hz hc ho a s k) (fun k => rToRmMem_fault _ a s k hc)
        | true =>
          exact does_store (k := e.ok a z.bytes false) (w := e.ok a z.bytes true) (by simp [allowed, dst, src, ofRm, Opd.ok])
            (fun k => rToRmMem_wr hz hc ho a s k) (fun k => rToRmMem_fault _ a s k hc)
      | rmImm v =>
        cases hw : o.writes with
        | false =>
          exact does_load (k := e.ok a z.bytes false) (by simp [allowed, dst, src, ofRm, Opd.ok])
            (fun k => immToMem_nw hz hc ho a v k) (fun k => immToMem_fault _ a v k hc)
        | true =>
          exact does_store (k := e.ok a z.bytes false) (w := e.ok a z.bytes true) (by simp [allowed, dst, src, ofRm, Opd.ok])
            (fun k => immToMem_wr hz hc ho a v k) (fun k => immToMem_fault _ a v k hc)
  | some sum =>
    cases rm with
    | reg r =>
      cases f with
      | rmR s => exact does_reg (by simp [allowed, dst, src, ofRm, Opd.ok]) (rToRmFlagsReg_run hz hc ho sum o.writes r s)
      | rRm d => exact does_reg (by simp [allowed, dst, src, ofRm, Opd.ok]) (rmToRFlagsReg_run hz hc ho sum o.writes d r)
      | rmImm v => exact does_reg (by simp [allowed, dst, src, ofRm, Opd.ok]) (immToRegFlags_run hz hc ho sum o.writes r v)
    | mem a =>
      cases f with
      | rRm d =>
        exact does_load (k := e.ok a z.bytes false) (by simp [allowed, dst, src, ofRm, Opd.ok])
          (fun k => rmToRFlagsMem_run hz hc ho sum o.writes d a k) (fun k => rmToRFlagsMem_fault _ _ a d k hc)
      | rmR s =>
        cases hw : o.writes with
        | false =>
          exact does_load (k := e.ok a z.bytes false) (by simp [allowed, dst, src, ofRm, Opd.ok])
            (fun k => rToRmFlagsMem_nw hz hc ho sum a s k) (fun k => rToRmFlagsMem_fault _ _ a s k hc)
        | true =>
          exact does_store (k := e.ok a z.bytes false) (w := e.ok a z.bytes true) (by simp [allowed, dst, src, ofRm, Opd.ok])
            (fun k => rToRmFlagsMem_wr hz hc ho sum a s k) (fun k => rToRmFlagsMem_fault _ _ a s k hc)
      | rmImm v =>
        cases hw : o.writes with
        | false =>
          exact does_load (k := e.ok a z.bytes false) (by simp [allowed, dst, src, ofRm, Opd.ok])
            (fun k => immToMemFlags_nw hz hc ho sum a v k) (fun k => immToMemFlags_fault _ _ a v k hc)
        | true =>
          exact does_store (k := e.ok a z.bytes false) (w := e.ok a z.bytes true) (by simp [allowed, dst, src, ofRm, Opd.ok])
            (fun k => immToMemFlags_wr hz hc ho sum a v k) (fun k => immToMemFlags_fault _ _ a v k hc)

theorem width {z : Sz} (hz : z ≠ .q) : Width z.bits := by
  unfold Width
  cases z
  · exact Or.inl rfl
  · exact Or.inr (Or.inl rfl)
  · exact Or.inr (Or.inr rfl)
  · exact absurd rfl hz

/-- The values and flags are the architectural ones. -/
theorem val_flags {n : Nat} (hn : Width n) (o : Op) (s : Flags.St) (h : Clean s) (a b : BitVec n) :
    o.val s a b = result o (flags s).cf a b ∧ FlagsAfter o (flags s).cf a b (flags (newFl o s a b)) ∧
      (newFl o s a b).eflags = s.eflags := by
  cases o
  · exact ⟨rfl, (Flags.C26_add hn s h a b).2, rfl⟩
  · exact ⟨(Flags.C26_adc hn s h a b).1, (Flags.C26_adc hn s h a b).2, rfl⟩
  · exact ⟨rfl, (Flags.C26_sub hn s h a b).2, rfl⟩
  · exact ⟨(Flags.C26_sbb hn s h a b).1, (Flags.C26_sbb hn s h a b).2, rfl⟩
  · exact ⟨rfl, (Flags.C26_sub hn s h a b).2, rfl⟩
  · exact ⟨rfl, (Flags.C26_logic hn s h (a &&& b)).2, rfl⟩
  · exact ⟨rfl, (Flags.C26_logic hn s h (a ||| b)).2, rfl⟩
  · exact ⟨rfl, (Flags.C26_logic hn s h (a ^^^ b)).2, rfl⟩
  · exact ⟨rfl, (Flags.C26_logic hn s h (a &&& b)).2, rfl⟩

/-- C82, ADD, ADC, SUB, SBB, CMP, AND, OR, XOR, TEST in every operand form and size: whatever the
host registers, locals and host flags hold before, and whatever the memory helpers leave in the
registers they do not preserve, if the accesses are allowed the emitted code runs to its end,
assigns the architectural result to the destination (nothing for CMP and TEST), sets the flags of
the operation and changes nothing else of the guest; if an access is not allowed it ends in the
fault with the guest state unchanged.  The context pointer is in RCX again afterwards. -/
theorem C82_alu (o : Op) {z : Sz} (hz : z ≠ .q) (e : Env) (h : St) (hc : h.r .rcx = e.ctx) (hcl : Clean h.g.fl)
    (rm : Rm) (f : Form) :
    (allowed e z o.writes (dst rm f) (src rm f) = true → ∃ h', run e 0 (emit o z rm f) h = .next 0 h' ∧
      h'.r .rcx = e.ctx ∧
      SameButFlags (if o.writes then (dst rm f).set h.g z
        (result o (flags h.g.fl).cf ((dst rm f).get h.g z) ((src rm f).get h.g z)) else h.g) h'.g ∧
      FlagsAfter o (flags h.g.fl).cf ((dst rm f).get h.g z) ((src rm f).get h.g z) (flags h'.g.fl)) ∧
    (allowed e z o.writes (dst rm f) (src rm f) = false → run e 0 (emit o z rm f) h = .fault h.g) := by
  obtain ⟨h1, h2⟩ := emit_does o hz hc rm f
  refine ⟨fun ha => ?_, h2⟩
  obtain ⟨h', r, g, c⟩ := h1 ha
  obtain ⟨v1, v2, v3⟩ := val_flags (width hz) o h.g.fl hcl ((dst rm f).get h.g z) ((src rm f).get h.g z)
  have hs : ((dst rm f).set h.g z (o.val h.g.fl ((dst rm f).get h.g z) ((src rm f).get h.g z))).fl = h.g.fl := by
    cases dst rm f <;> rfl
  refine ⟨h', r, c, ?_, ?_⟩
  · rw [g, ← v1]
    unfold after
    refine ⟨rfl, rfl, ?_⟩
    cases o.writes with
    | false => exact v3
    | true => exact v3.trans (congrArg _ hs.symm)
  · rw [g]; exact v2

/-- Register operands: reading back what was written. -/
theorem rdG_wrG (g : G) (z : Sz) (r : GReg) (v : BitVec z.bits) (hz : z ≠ .q) : rdG (wrG g z r v) z r = v := by
  obtain ⟨i, hi⟩ := r
  unfold rdG wrG
  simp only [if_true]
  cases z
  · cases hi
    · rw [if_neg (by simp)]
      show BitVec.setWidth 8 ((g.gpr i &&& 0xFFFFFF00#32) ||| BitVec.setWidth 32 (w := 8) v) = v
      change BitVec 8 at v
      bits8
    · rw [if_pos ⟨rfl, rfl⟩]
      show BitVec.setWidth 8 (((g.gpr i &&& 0xFFFF00FF#32) ||| (BitVec.setWidth 32 (w := 8) v <<< 8)) >>> 8) = v
      change BitVec 8 at v
      bits8
  · rw [if_neg (by simp)]
    show BitVec.setWidth 16 ((g.gpr i &&& 0xFFFF0000#32) ||| BitVec.setWidth 32 (w := 16) v) = v
    change BitVec 16 at v
    bits16
  · rw [if_neg (by simp)]
    exact BitVec.setWidth_eq _
  · exact absurd rfl hz

/-- C82, register operands: a write is seen by a read of the same operand, changes no other register
and no bit outside the operand (AL, CL, ... are bits 0-7, AH, CH, DH, BH bits 8-15, AX, ... bits
0-15). -/
theorem C82_register_operand (g : G) {z : Sz} (hz : z ≠ .q) (r : GReg) (v : BitVec z.bits) :
    rdG (wrG g z r v) z r = v ∧ (∀ i, i ≠ r.idx → (wrG g z r v).gpr i = g.gpr i) ∧
    (∀ k, k < 32 → (if z = .b ∧ r.hi = true then k < 8 ∨ 16 ≤ k else z.bits ≤ k) →
      ((wrG g z r v).gpr r.idx).getLsbD k = (g.gpr r.idx).getLsbD k) := by
  refine ⟨rdG_wrG g z r v hz, fun i hi => if_neg hi, ?_⟩
  intro k hk hb
  obtain ⟨i, hi⟩ := r
  unfold wrG
  simp only [if_true]
  generalize g.gpr i = o
  have hlit : ∀ m : BitVec 32, m.getLsbD k = true → (o &&& m).getLsbD k = o.getLsbD k := by
    intro m hm
    rw [BitVec.getLsbD_and, hm, Bool.and_true]
  cases z
  · cases hi
    · rw [if_neg (by simp)] at hb
      have hb : 8 ≤ k := hb
      change BitVec 8 at v
      show ((o &&& 0xFFFFFF00#32) ||| BitVec.setWidth 32 v).getLsbD k = o.getLsbD k
      rw [BitVec.getLsbD_or, BitVec.getLsbD_setWidth, BitVec.getLsbD_of_ge v k hb, Bool.and_false, Bool.or_false]
      refine hlit _ ?_
      have : ∀ j : Fin 32, 8 ≤ j.val → (0xFFFFFF00#32).getLsbD j.val = true := by decide
      exact this ⟨k, hk⟩ hb
    · rw [if_pos ⟨rfl, rfl⟩] at hb
      change BitVec 8 at v
      show ((o &&& 0xFFFF00FF#32) ||| (BitVec.setWidth 32 v <<< 8)).getLsbD k = o.getLsbD k
      have h0 : (BitVec.setWidth 32 v <<< 8).getLsbD k = false := by
        rw [BitVec.getLsbD_shiftLeft]
        rcases hb with hb | hb
        · simp [hb]
        · rw [BitVec.getLsbD_setWidth, BitVec.getLsbD_of_ge v (k - 8) (by omega), Bool.and_false, Bool.and_false]
      rw [BitVec.getLsbD_or, h0, Bool.or_false]
      refine hlit _ ?_
      have : ∀ j : Fin 32, j.val < 8 ∨ 16 ≤ j.val → (0xFFFF00FF#32).getLsbD j.val = true := by decide
      exact this ⟨k, hk⟩ hb
  · rw [if_neg (by simp)] at hb
    have hb : 16 ≤ k := hb
    change BitVec 16 at v
    show ((o &&& 0xFFFF0000#32) ||| BitVec.setWidth 32 v).getLsbD k = o.getLsbD k
    rw [BitVec.getLsbD_or, BitVec.getLsbD_setWidth, BitVec.getLsbD_of_ge v k hb, Bool.and_false, Bool.or_false]
    refine hlit _ ?_
    have : ∀ j : Fin 32, 16 ≤ j.val → (0xFFFF0000#32).getLsbD j.val = true := by decide
    exact this ⟨k, hk⟩ hb
  · rw [if_neg (by simp)] at hb
    have hb : 32 ≤ k := hb
    omega
  · exact absurd rfl hz

theorem one_width {z : Sz} (hz : z ≠ .q) : (1#64).setWidth z.bits = 1#z.bits := by
  cases z
  · decide
  · decide
  · decide
  · exact absurd rfl hz

/-- C82, INC and DEC: the operand is incremented or decremented, CF is kept and the other flags are
those of adding or subtracting one. -/
theorem C82_inc_dec (inc : Bool) {z : Sz} (hz : z ≠ .q) (e : Env) (h : St) (hc : h.r .rcx = e.ctx) (hcl : Clean h.g.fl)
    (rm : Rm) :
    (allowed e z true (ofRm rm) (ofRm rm) = true → ∃ h', run e 0 (incDec inc z rm) h = .next 0 h' ∧ h'.r .rcx = e.ctx ∧
      SameButFlags ((ofRm rm).set h.g z
        (if inc then (ofRm rm).get h.g z + 1#z.bits else (ofRm rm).get h.g z - 1#z.bits)) h'.g ∧
      flags h'.g.fl = { (if inc then addFlags ((ofRm rm).get h.g z) 1#z.bits false
        else subFlags ((ofRm rm).get h.g z) 1#z.bits false) with cf := (flags h.g.fl).cf }) ∧
    (allowed e z true (ofRm rm) (ofRm rm) = false → run e 0 (incDec inc z rm) h = .fault h.g) := by
  have hd : Does e (incDec inc z rm) h (allowed e z true (ofRm rm) (ofRm rm))
      { (ofRm rm).set h.g z (if inc then (ofRm rm).get h.g z + 1#z.bits else (ofRm rm).get h.g z - 1#z.bits) with
        fl := if inc then (Flags.incOp h.g.fl ((ofRm rm).get h.g z)).2 else (Flags.decOp h.g.fl ((ofRm rm).get h.g z)).2 } := by
    cases rm with
    | reg r =>
      refine does_reg (by simp [allowed, ofRm, Opd.ok]) ?_
      have := incDecReg_run hz inc hc r
      rw [one_width hz] at this
      cases inc
      · exact this
      · exact this
    | mem a =>
      refine does_store (k := e.ok a z.bytes false) (w := e.ok a z.bytes true) (by simp [allowed, ofRm, Opd.ok]) ?_ ?_
      · intro k
        have := incDecMem_run hz inc hc a k
        rw [one_width hz] at this
        cases inc
        · exact this
        · exact this
      · intro k
        unfold incDec
        hexec [hc, k, Bool.false_eq_true]
  refine ⟨fun ha => ?_, hd.2⟩
  obtain ⟨h', r, g, c⟩ := hd.1 ha
  refine ⟨h', r, c, ?_, ?_⟩
  · rw [g]
    refine ⟨rfl, rfl, ?_⟩
    cases inc <;> cases rm <;> rfl
  · rw [g]
    cases inc
    · exact (Flags.C26_dec (width hz) h.g.fl hcl _).2
    · exact (Flags.C26_inc (width hz) h.g.fl hcl _).2

theorem zero_width (z : Sz) : (0#64).setWidth z.bits = 0#z.bits := by
  cases z <;> decide

/-- C82, NEG: the operand becomes zero minus itself, with the flags of that subtraction. -/
theorem C82_neg {z : Sz} (hz : z ≠ .q) (e : Env) (h : St) (hc : h.r .rcx = e.ctx) (hcl : Clean h.g.fl) (rm : Rm) :
    (allowed e z true (ofRm rm) (ofRm rm) = true → ∃ h', run e 0 (neg z rm) h = .next 0 h' ∧ h'.r .rcx = e.ctx ∧
      SameButFlags ((ofRm rm).set h.g z (0#z.bits - (ofRm rm).get h.g z)) h'.g ∧
      flags h'.g.fl = subFlags 0#z.bits ((ofRm rm).get h.g z) false) ∧
    (allowed e z true (ofRm rm) (ofRm rm) = false → run e 0 (neg z rm) h = .fault h.g) := by
  have hd : Does e (neg z rm) h (allowed e z true (ofRm rm) (ofRm rm))
      { (ofRm rm).set h.g z (-(ofRm rm).get h.g z) with fl := (Flags.negOp h.g.fl ((ofRm rm).get h.g z)).2 } := by
    cases rm with
    | reg r =>
      refine does_reg (by simp [allowed, ofRm, Opd.ok]) ?_
      have := negReg_run hz hc r
      rw [zero_width] at this
      exact this
    | mem a =>
      refine does_store (k := e.ok a z.bytes false) (w := e.ok a z.bytes true) (by simp [allowed, ofRm, Opd.ok]) ?_ ?_
      · intro k
        have := negMem_run hz hc a k
        rw [zero_width] at this
        exact this
      · intro k
        unfold neg
        hexec [hc, k, Bool.false_eq_true]
  refine ⟨fun ha => ?_, hd.2⟩
  obtain ⟨h', r, g, c⟩ := hd.1 ha
  rw [BitVec.zero_sub]
  refine ⟨h', r, c, ?_, ?_⟩
  · rw [g]
    refine ⟨rfl, rfl, ?_⟩
    cases rm <;> rfl
  · rw [g]
    exact (Flags.C26_neg (width hz) h.g.fl hcl _).2

/-- C82, NOT: the operand is complemented and no flag changes. -/
theorem C82_not (z : Sz) (e : Env) (h : St) (hc : h.r .rcx = e.ctx) (rm : Rm) :
    (allowed e z true (ofRm rm) (ofRm rm) = true → ∃ h', run e 0 (not z rm) h = .next 0 h' ∧ h'.r .rcx = e.ctx ∧
      h'.g = (ofRm rm).set h.g z (~~~(ofRm rm).get h.g z)) ∧
    (allowed e z true (ofRm rm) (ofRm rm) = false → run e 0 (not z rm) h = .fault h.g) := by
  have hd : Does e (not z rm) h (allowed e z true (ofRm rm) (ofRm rm))
      ((ofRm rm).set h.g z (~~~(ofRm rm).get h.g z)) := by
    cases rm with
    | reg r => exact does_reg (by simp [allowed, ofRm, Opd.ok]) (notReg_run hc r)
    | mem a =>
      refine does_store (k := e.ok a z.bytes false) (w := e.ok a z.bytes true) (by simp [allowed, ofRm, Opd.ok])
        (fun k => notMem_run hc a k) ?_
      intro k
      unfold not
      hexec [hc, k, Bool.false_eq_true]
  refine ⟨fun ha => ?_, hd.2⟩
  obtain ⟨h', r, g, c⟩ := hd.1 ha
  exact ⟨h', r, c, g⟩

/-- C82, XADD: the source register gets the old destination, then the destination the sum (also when
they are the same register), with the flags of the addition. -/
theorem C82_xadd {z : Sz} (hz : z ≠ .q) (e : Env) (h : St) (hc : h.r .rcx = e.ctx) (hcl : Clean h.g.fl) (src : GReg) (rm : Rm) :
    (allowed e z true (ofRm rm) (.reg src) = true → ∃ h', run e 0 (xadd z src rm) h = .next 0 h' ∧ h'.r .rcx = e.ctx ∧
      SameButFlags ((ofRm rm).set ((Opd.reg src).set h.g z ((ofRm rm).get h.g z)) z
        ((ofRm rm).get h.g z + rdG h.g z src)) h'.g ∧
      flags h'.g.fl = addFlags ((ofRm rm).get h.g z) (rdG h.g z src) false) ∧
    (allowed e z true (ofRm rm) (.reg src) = false → run e 0 (xadd z src rm) h = .fault h.g) := by
  have hd : Does e (xadd z src rm) h (allowed e z true (ofRm rm) (.reg src))
      { (ofRm rm).set ((Opd.reg src).set h.g z ((ofRm rm).get h.g z)) z
        ((ofRm rm).get h.g z + rdG h.g z src) with fl := (Flags.addOp h.g.fl ((ofRm rm).get h.g z) (rdG h.g z src)).2 } := by
    cases rm with
    | reg r => exact does_reg (by simp [allowed, ofRm, Opd.ok]) (xaddReg_run hz hc src r)
    | mem a =>
      refine does_store (k := e.ok a z.bytes false) (w := e.ok a z.bytes true) (by simp [allowed, ofRm, Opd.ok])
        (fun k => xaddMem_run hz hc src a k) ?_
      intro k
      unfold xadd
      hexec [hc, k, Bool.false_eq_true]
  refine ⟨fun ha => ?_, hd.2⟩
  obtain ⟨h', r, g, c⟩ := hd.1 ha
  refine ⟨h', r, c, ?_, ?_⟩
  · rw [g]
    refine ⟨rfl, rfl, ?_⟩
    cases rm <;> rfl
  · rw [g]
    exact (Flags.C26_add (width hz) h.g.fl hcl _ _).2

/-- C82, XCHG, the part that holds: with both accesses allowed the two operands are exchanged; if the
memory operand cannot be read nothing changes.  Missing: a memory operand that can be read but not
written, see `C82_xchg_fault_violation`. -/
theorem C82_xchg_partial (z : Sz) (e : Env) (h : St) (hc : h.r .rcx = e.ctx) (src : GReg) (rm : Rm) :
    (allowed e z true (ofRm rm) (.reg src) = true → ∃ h', run e 0 (xchg z src rm) h = .next 0 h' ∧ h'.r .rcx = e.ctx ∧
      h'.g = (ofRm rm).set ((Opd.reg src).set h.g z ((ofRm rm).get h.g z)) z (rdG h.g z src)) ∧
    ((ofRm rm).ok e z false = false → run e 0 (xchg z src rm) h = .fault h.g) := by
  cases rm with
  | reg r =>
    refine ⟨fun _ => ?_, fun hk => by cases hk⟩
    obtain ⟨h', r, g, c⟩ := xchgReg_run hc src r
    exact ⟨h', r, c, g⟩
  | mem a =>
    refine ⟨fun ha => ?_, fun hk => ?_⟩
    · have ha : e.ok a z.bytes false = true ∧ e.ok a z.bytes true = true := by
        simpa [allowed, ofRm, Opd.ok] using ha
      obtain ⟨h', r, g, c⟩ := (xchgMem_run hc src a ha.1).1 ha.2
      exact ⟨h', r, c, g⟩
    · have hk : e.ok a z.bytes false = false := hk
      unfold xchg
      hexec [hc, hk, Bool.false_eq_true]

/-- C82, XCHG with the accumulator (90-97); exchanging it with itself is the NOP. -/
theorem C82_xchg_acc (z : Sz) (e : Env) (h : St) (hc : h.r .rcx = e.ctx) (r : GReg) :
    ∃ h', run e 0 (xchgAcc z r) h = .next 0 h' ∧ h'.r .rcx = e.ctx ∧
      h'.g = wrG (wrG h.g z acc (rdG h.g z r)) z r (rdG h.g z acc) := by
  obtain ⟨h', r, g, c⟩ := xchgAcc_run (z := z) hc r
  exact ⟨h', r, c, g⟩

/-- C82, XCHG with memory, violated: when the operand can be read but not written the register has
already been overwritten with the memory operand when the fault is raised, so the restarted
instruction no longer has its source. -/
theorem C82_xchg_fault_violation {z : Sz} {e : Env} {h : St} (hc : h.r .rcx = e.ctx) (src : GReg) (a : Ea)
    (hr : e.ok a z.bytes false = true) (hw : e.ok a z.bytes true = false) :
    run e 0 (xchg z src (.mem a)) h = .fault ((Opd.reg src).set h.g z ((Opd.mem a).get h.g z)) :=
  (xchgMem_run hc src a hr).2 hw

/-- C82, CMPXCHG, the part that holds: if the accumulator equals the destination the source goes to
the destination, otherwise the destination to the accumulator; ZF says which; a fault changes
nothing.  Missing: the other flags are those of destination minus accumulator
(`C26_cmpxchg_flags_violation`), and a destination that differs is not written back
(`C82_cmpxchg_readonly_violation`). -/
theorem C82_cmpxchg_partial {z : Sz} (hz : z ≠ .q) (e : Env) (h : St) (hc : h.r .rcx = e.ctx) (hcl : Clean h.g.fl)
    (src : GReg) (rm : Rm) :
    (allowed e z ((ofRm rm).get h.g z == rdG h.g z acc) (ofRm rm) (.reg src) = true →
      ∃ h', run e 0 (cmpxchg z src rm) h = .next 0 h' ∧ h'.r .rcx = e.ctx ∧
      SameButFlags (if (ofRm rm).get h.g z = rdG h.g z acc then (ofRm rm).set h.g z (rdG h.g z src)
        else wrG h.g z acc ((ofRm rm).get h.g z)) h'.g ∧
      (flags h'.g.fl).zf = decide (rdG h.g z acc = (ofRm rm).get h.g z) ∧
      flags h'.g.fl = subFlags ((ofRm rm).get h.g z) (rdG h.g z acc) false) ∧
    (allowed e z ((ofRm rm).get h.g z == rdG h.g z acc) (ofRm rm) (.reg src) = false →
      run e 0 (cmpxchg z src rm) h = .fault h.g) := by
  have he : ∀ x y : BitVec z.bits, (x - y = 0) ↔ (x = y) := by
    intro x y
    constructor
    · intro h0
      have h1 := BitVec.sub_add_cancel x y
      rw [h0] at h1
      exact h1.symm.trans (BitVec.zero_add y)
    · intro h1; rw [h1, BitVec.sub_self]; rfl
  have hd : Does e (cmpxchg z src rm) h (allowed e z ((ofRm rm).get h.g z == rdG h.g z acc) (ofRm rm) (.reg src))
      { (if (ofRm rm).get h.g z = rdG h.g z acc then (ofRm rm).set h.g z (rdG h.g z src)
        else wrG h.g z acc ((ofRm rm).get h.g z)) with
        fl := (Flags.cmpxchgOp h.g.fl ((ofRm rm).get h.g z) (rdG h.g z src) (rdG h.g z acc)).2.2 } := by
    have hf : ∀ x : BitVec z.bits, (Flags.cmpxchgOp h.g.fl x (rdG h.g z src) (rdG h.g z acc)).2.2 =
        Flags.setFlagsSub h.g.fl x (rdG h.g z acc) (x - rdG h.g z acc) := by
      intro x
      unfold Flags.cmpxchgOp
      dsimp only
      split <;> rfl
    rw [hf]
    cases rm with
    | reg r =>
      refine does_reg (by simp [allowed, ofRm, Opd.ok]) ?_
      have := cmpxchgReg_run hz hc src r
      by_cases hd : rdG h.g z r = rdG h.g z acc
      · rw [if_pos ((he _ _).2 hd)] at this
        rw [if_pos (show (ofRm (.reg r)).get h.g z = rdG h.g z acc from hd)]
        exact this
      · rw [if_neg (fun x => hd ((he _ _).1 x))] at this
        rw [if_neg (show ¬ (ofRm (.reg r)).get h.g z = rdG h.g z acc from hd)]
        exact this
    | mem a =>
      by_cases hd : (ofRm (.mem a)).get h.g z = rdG h.g z acc
      · rw [if_pos hd, beq_iff_eq.2 hd]
        refine does_store (k := e.ok a z.bytes false) (w := e.ok a z.bytes true) (by simp [allowed, ofRm, Opd.ok]) ?_ ?_
        · intro k
          have := (cmpxchgMem_run hz hc src a k rfl).2
          exact ⟨this.1 ((he _ _).2 hd), this.2 ((he _ _).2 hd)⟩
        · intro k
          unfold cmpxchg
          hexec [hc, k, Bool.false_eq_true]
      · rw [if_neg hd, beq_eq_false_iff_ne.2 hd]
        refine does_load (k := e.ok a z.bytes false) (by simp [allowed, ofRm, Opd.ok]) ?_ ?_
        · intro k
          exact (cmpxchgMem_run hz hc src a k rfl).1 (fun x => hd ((he _ _).1 x))
        · intro k
          unfold cmpxchg
          hexec [hc, k, Bool.false_eq_true]
  refine ⟨fun ha => ?_, hd.2⟩
  obtain ⟨h', r, g, c⟩ := hd.1 ha
  have hp := Flags.C26_cmpxchg_partial (width hz) h.g.fl hcl ((ofRm rm).get h.g z) (rdG h.g z src) (rdG h.g z acc)
  refine ⟨h', r, c, ?_, ?_, ?_⟩
  · rw [g]
    refine ⟨rfl, rfl, ?_⟩
    have h1 : (Flags.cmpxchgOp h.g.fl ((ofRm rm).get h.g z) (rdG h.g z src) (rdG h.g z acc)).2.2.eflags = h.g.fl.eflags := by
      unfold Flags.cmpxchgOp
      dsimp only
      split <;> rfl
    refine h1.trans ?_
    split
    · cases rm <;> rfl
    · rfl
  · rw [g]; exact hp.2.2.1
  · rw [g]; exact hp.2.2.2

/-- C82, CMPXCHG, violated: the architecture writes the destination back when it differs from the
accumulator, so memory that cannot be written faults; the emitted code completes. -/
theorem C82_cmpxchg_readonly_violation {z : Sz} (hz : z ≠ .q) {e : Env} {h : St} (hc : h.r .rcx = e.ctx)
    (src : GReg) (a : Ea) (hr : e.ok a z.bytes false = true) (_hw : e.ok a z.bytes true = false)
    (hd : (Opd.mem a).get h.g z - rdG h.g z acc ≠ 0) :
    ∃ h', run e 0 (cmpxchg z src (.mem a)) h = .next 0 h' ∧ rdG h'.g z acc = (Opd.mem a).get h.g z ∧ h'.g.mem = h.g.mem := by
  obtain ⟨h', r, g, _⟩ := (cmpxchgMem_run hz hc src a hr rfl).1 hd
  refine ⟨h', r, ?_, ?_⟩
  · rw [g]
    exact rdG_wrG h.g z acc _ hz
  · rw [g]; rfl

theorem pair_append (a b : BitVec 32) : pair a b = a ++ b := by
  unfold pair
  ext i hi
  rw [BitVec.getElem_append]
  by_cases h : i < 32
  · simp [h]
  · have h2 : i - 32 < 32 := by omega
    simp [h, BitVec.getLsbD_of_ge b i (by omega), BitVec.getLsbD_eq_getElem h2]

theorem append_halves (v : BitVec 64) : (v >>> 32).setWidth 32 ++ v.setWidth 32 = v := by
  ext i hi
  rw [BitVec.getElem_append]
  have hi : i < 64 := hi
  by_cases h : i < 32
  · simp only [h, dite_true, BitVec.getElem_setWidth]
    exact BitVec.getLsbD_eq_getElem hi
  · simp only [h, dite_false, BitVec.getElem_setWidth, BitVec.getLsbD_ushiftRight]
    rw [show 32 + (i - 32) = i by omega]
    exact BitVec.getLsbD_eq_getElem hi

theorem wrG_gpr_ne (g : G) (z : Sz) (r : GReg) (v : BitVec z.bits) {i : Fin 8} (hi : i ≠ r.idx) :
    (wrG g z r v).gpr i = g.gpr i := if_neg hi

theorem seg1_fault {e : Env} {h : St} (hc : h.r .rcx = e.ctx) (adr : Ea) (s : Sz)
    (hok : e.ok adr s.bytes false = false) :
    run e 0 [.ea adr, .stL .d 0 .rdx, .ldMem s, .ldG .d .rdx ⟨2, false⟩, .ldG .d .rbx ⟨0, false⟩, .sh .shl s .rdx 32,
      .alu .or s .rdx (.reg .rbx), .cmp s .rax (.reg .rdx), .ldL .d .rdx 0] h = .fault h.g := by
  hexec [hc, hok, Bool.false_eq_true]

/-- C82, CMPXCHG8B: EDX:EAX is compared with the eight bytes; equal stores ECX:EBX and sets ZF,
different loads EDX:EAX (the bytes are written back) and clears ZF; the other flags stay; a fault
changes nothing. -/
theorem C82_cmpxchg8b (e : Env) (h : St) (hc : h.r .rcx = e.ctx) (hcl : Clean h.g.fl) (a : Ea) :
    (allowed e .q true (.mem a) (.mem a) = true → ∃ h', run e 0 (cmpxchg8b a) h = .next 0 h' ∧ h'.r .rcx = e.ctx ∧
      ((Opd.mem a).get h.g .q = h.g.gpr 2 ++ h.g.gpr 0 →
        SameButFlags ((Opd.mem a).set h.g .q (h.g.gpr 1 ++ h.g.gpr 3)) h'.g ∧
        flags h'.g.fl = { flags h.g.fl with zf := true }) ∧
      ((Opd.mem a).get h.g .q ≠ h.g.gpr 2 ++ h.g.gpr 0 →
        h'.g.mem = store h.g.mem a Sz.q.bytes ((Opd.mem a).get h.g .q).toNat ∧
        h'.g.gpr 2 ++ h'.g.gpr 0 = (Opd.mem a).get h.g .q ∧
        (∀ i, i ≠ 0 → i ≠ 2 → h'.g.gpr i = h.g.gpr i) ∧ h'.g.fl.eflags = h.g.fl.eflags ∧
        flags h'.g.fl = { flags h.g.fl with zf := false })) ∧
    (allowed e .q true (.mem a) (.mem a) = false → run e 0 (cmpxchg8b a) h = .fault h.g) := by
  constructor
  · intro ha
    have hok : e.ok a Sz.q.bytes false = true ∧ e.ok a Sz.q.bytes true = true := by
      simpa [allowed, ofRm, Opd.ok] using ha
    obtain ⟨h1, h2, _⟩ := cmpxchg8b_run hc a hok.1 (v := (Opd.mem a).get h.g .q) rfl
    by_cases hd : (Opd.mem a).get h.g .q = h.g.gpr 2 ++ h.g.gpr 0
    · obtain ⟨h', r, g, c⟩ := h2 (hd.trans (pair_append _ _).symm) hok.2
      refine ⟨h', r, c, fun _ => ⟨?_, ?_⟩, fun hn => absurd hd hn⟩
      · rw [g, pair_append]
        exact ⟨rfl, rfl, rfl⟩
      · rw [g]; exact Flags.C27_set_zf _ hcl
    · obtain ⟨h', r, g, c⟩ := h1 (fun hp => hd (hp.trans (pair_append _ _))) hok.2
      refine ⟨h', r, c, fun hn => absurd hn hd, fun _ => ⟨?_, ?_, ?_, ?_, ?_⟩⟩
      · rw [g]; rfl
      · have g2 : h'.g.gpr 2 = ((Opd.mem a).get h.g .q >>> 32).setWidth 32 := by rw [g]; rfl
        have g0 : h'.g.gpr 0 = ((Opd.mem a).get h.g .q).setWidth 32 := by rw [g]; rfl
        rw [g2, g0]
        exact append_halves _
      · intro i i0 i2
        rw [g]
        exact (wrG_gpr_ne _ _ _ _ i2).trans (wrG_gpr_ne _ _ _ _ i0)
      · rw [g]; rfl
      · rw [g]; exact Flags.C27_clear_zf _ hcl
  · intro ha
    cases hr : e.ok a Sz.q.bytes false with
    | true =>
      have hw : e.ok a Sz.q.bytes true = false := by
        simpa [allowed, Opd.ok, hr] using ha
      exact (cmpxchg8b_run hc a hr rfl).2.2 hw
    | false =>
      rw [cmpxchg8b_split]
      exact run_append_fault _ (seg1_fault hc a .q hr)

/-! Non-trivial cases: a context at 0x1000, EAX = 0x000002FF, EBX = 1, CF set, byte 0x80 at 0x2000
readable, and writable below 0x3000 only. -/

/-- Example environment. -/
def exEnv : Env := ⟨0x1000#64, 0x1800#64, fun a _ w => !w || decide (a.toNat < 0x3000), fun _ _ => 0xDEAD#64, fun _ _ => true,
  fun s => if s = 2 then 0x2000#32 else 0#32, fun s => BitVec.ofNat 16 (8 * s.val)⟩
/-- Example operand. -/
def exEa (a : BitVec 32) : Ea := ⟨a, 0xBEEF#64, 0xF00#64, fun _ => false⟩
/-- Example state. -/
def exSt : St :=
  { r := fun r => if r = .rcx then 0x1000#64 else 0xBAD#64
    loc := fun _ => 0xBAD#64
    zf := true, cf := true, of := true, sf := true
    g := { gpr := fun i => if i = 0 then 0x2FF#32 else if i = 3 then 1#32 else 0#32
           fl := ⟨2#32, 0x100#32, 0x80000000#32⟩
           mem := fun _ => 0x80#8 } }
/-- What a run leaves: a register, a byte, the flags word; or nothing if it faults. -/
def exOut (o : Out) (i : Fin 8) (a : BitVec 32) : Option (BitVec 32 × BitVec 8 × BitVec 32) :=
  match o with
  | .next _ h => some (h.g.gpr i, h.g.mem a, Flags.readEflags h.g.fl)
  | _ => none

example : exSt.r .rcx = exEnv.ctx ∧ Clean exSt.g.fl := ⟨rfl, by unfold Clean; decide⟩
-- ADC AL, BL: 0xFF + 1 + 1 = 1 with CF and AF
example : exOut (run exEnv 0 (emit .adc .b (.reg ⟨0, false⟩) (.rmR ⟨3, false⟩)) exSt) 0 0 =
    some (0x201#32, 0x80#8, 0x13#32) := by decide +kernel
-- SBB byte [0x2000], AH: 0x80 - 2 - 1 = 0x7D with OF and AF
example : exOut (run exEnv 0 (emit .sbb .b (.mem (exEa 0x2000#32)) (.rmR ⟨0, true⟩)) exSt) 0 0x2000#32 =
    some (0x2FF#32, 0x7D#8, 0x816#32) := by decide +kernel
-- the same at 0x3000 faults, CMP there does not
example : exOut (run exEnv 0 (emit .sbb .b (.mem (exEa 0x3000#32)) (.rmR ⟨0, true⟩)) exSt) 0 0 = none := by decide +kernel
example : allowed exEnv .b true (.mem 0x3000#32) (.reg ⟨0, true⟩) = false := by decide
example : allowed exEnv .b false (.mem 0x3000#32) (.reg ⟨0, true⟩) = true := by decide
-- XCHG AL, [0x2000] and XADD AL, AL
example : exOut (run exEnv 0 (xchg .b ⟨0, false⟩ (.mem (exEa 0x2000#32))) exSt) 0 0x2000#32 =
    some (0x280#32, 0xFF#8, 0x807#32) := by decide +kernel
example : exOut (run exEnv 0 (xadd .b ⟨0, false⟩ (.reg ⟨0, false⟩)) exSt) 0 0 =
    some (0x2FE#32, 0x80#8, 0x93#32) := by decide +kernel
-- INC AL wraps and keeps CF; NEG BL; NOT
example : exOut (run exEnv 0 (incDec true .b (.reg ⟨0, false⟩)) exSt) 0 0 =
    some (0x200#32, 0x80#8, 0x57#32) := by decide +kernel
-- CMPXCHG8B at 0x2000: the bytes differ from EDX:EAX
example : exOut (run exEnv 0 (cmpxchg8b (exEa 0x2000#32)) exSt) 2 0x2000#32 =
    some (0x80808080#32, 0x80#8, 0x807#32) := by decide +kernel

/-- C82, what the statements above take for granted: every instruction but CMP and TEST writes its destination. -/
theorem C82_writes (o : Op) : o.writes = true ↔ o ≠ .cmp ∧ o ≠ .test := by cases o <;> simp [Op.writes]
/-- And an operand has eight bits in each of its bytes. -/
theorem C82_sizes : Sz.b.bytes = 1 ∧ Sz.w.bytes = 2 ∧ Sz.d.bytes = 4 ∧ Sz.q.bytes = 8 ∧ ∀ z : Sz, z.bits = 8 * z.bytes :=
  ⟨rfl, rfl, rfl, rfl, fun z => by cases z <;> rfl⟩

end Verif.Emit
