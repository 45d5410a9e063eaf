import Verif.Lemmas.EmitMov
import Verif.Props.EmitEa
import Verif.Props.Frames
import Verif.Spec.EmitMov
import Verif.Lemmas.PushAll
import Verif.Props.RealEvent
/-
C98: MOV, LEA and the stack instructions as emitted.
-/
namespace Verif.Emit
open Host Guest
open Spec

/-- C98, MOV to a register or memory from a register (88, 89): the destination gets the source and nothing else of the guest changes;
a fault if it may not be written. -/
theorem C98_mov_store (z : Sz) (e : Env) (h : St) (hc : h.r .rcx = e.ctx) (src : GReg) (rm : Rm) :
    ((ofRm rm).ok e z true = true → ∃ h', run e 0 (movRmR z src rm) h = .next 0 h' ∧ h'.r .rcx = e.ctx ∧
      h'.g = (ofRm rm).set h.g z (rdG h.g z src)) ∧
    ((ofRm rm).ok e z true = false → run e 0 (movRmR z src rm) h = .fault h.g) := by
  unfold movRmR
  cases rm with
  | reg r =>
    refine ⟨fun _ => ?_, fun h => by cases h⟩
    hexec' [hc]
    exact ⟨_, rfl, hc, rfl⟩
  | mem a =>
    refine ⟨fun hk => ?_, fun hk => ?_⟩
    · have hk' : e.ok a.lin z.bytes true = true := hk
      hexec' [hc, hk']
      refine ⟨_, rfl, ?_⟩
      hexec' []
      exact ⟨trivial, rfl⟩
    · have hk' : e.ok a.lin z.bytes true = false := hk
      hexec' [hc, hk']

/-- C98, MOV to a register from a register or memory (8A, 8B, A0, A1). -/
theorem C98_mov_load (z : Sz) (e : Env) (h : St) (hc : h.r .rcx = e.ctx) (dst : GReg) (rm : Rm) :
    ((ofRm rm).ok e z false = true → ∃ h', run e 0 (movRRm z dst rm) h = .next 0 h' ∧ h'.r .rcx = e.ctx ∧
      h'.g = wrG h.g z dst ((ofRm rm).get h.g z)) ∧
    ((ofRm rm).ok e z false = false → run e 0 (movRRm z dst rm) h = .fault h.g) := by
  unfold movRRm
  cases rm with
  | reg r =>
    refine ⟨fun _ => ?_, fun h => by cases h⟩
    hexec' [hc]
    refine ⟨_, rfl, ?_⟩
    hexec' [hc]
    exact ⟨trivial, rfl⟩
  | mem a =>
    refine ⟨fun hk => ?_, fun hk => ?_⟩
    · have hk' : e.ok a.lin z.bytes false = true := hk
      hexec' [hc, hk']
      refine ⟨_, rfl, ?_⟩
      hexec' []
      exact ⟨trivial, rfl⟩
    · have hk' : e.ok a.lin z.bytes false = false := hk
      hexec' [hc, hk']

/-- C98, MOV of an immediate (B0-BF, C6, C7). -/
theorem C98_mov_imm (z : Sz) (e : Env) (h : St) (hc : h.r .rcx = e.ctx) (v : BitVec 64) (rm : Rm) :
    ((ofRm rm).ok e z true = true → ∃ h', run e 0 (movImm z v rm) h = .next 0 h' ∧ h'.r .rcx = e.ctx ∧
      h'.g = (ofRm rm).set h.g z (v.setWidth z.bits)) ∧
    ((ofRm rm).ok e z true = false → run e 0 (movImm z v rm) h = .fault h.g) := by
  unfold movImm
  cases rm with
  | reg r =>
    refine ⟨fun _ => ?_, fun h => by cases h⟩
    hexec' [hc]
    exact ⟨_, rfl, hc, rfl⟩
  | mem a =>
    refine ⟨fun hk => ?_, fun hk => ?_⟩
    · have hk' : e.ok a.lin z.bytes true = true := hk
      hexec' [hc, hk']
      refine ⟨_, rfl, ?_⟩
      hexec' []
      exact ⟨trivial, rfl⟩
    · have hk' : e.ok a.lin z.bytes true = false := hk
      hexec' [hc, hk']

/-- C98, MOV of the accumulator to a direct address (A2, A3). -/
theorem C98_mov_moffs (z : Sz) (e : Env) (h : St) (hc : h.r .rcx = e.ctx) (a : Ea) :
    (e.ok a.lin z.bytes true = true → ∃ h', run e 0 (movToMoffs z a) h = .next 0 h' ∧ h'.r .rcx = e.ctx ∧
      h'.g = { h.g with mem := store h.g.mem a.lin z.bytes (rdG h.g z acc).toNat }) ∧
    (e.ok a.lin z.bytes true = false → run e 0 (movToMoffs z a) h = .fault h.g) := by
  unfold movToMoffs
  refine ⟨fun hk => ?_, fun hk => ?_⟩
  · hexec' [hc, hk]
    refine ⟨_, rfl, ?_⟩
    hexec' []
    exact ⟨trivial, trivial⟩
  · hexec' [hc, hk]

/-- C98, MOV of a selector (8C): the 16 bits of the selector to memory.  Missing: the operand size of a register destination. -/
theorem C98_mov_sel_partial (e : Env) (h : St) (hc : h.r .rcx = e.ctx) (s : Fin 6) :
    (∀ r : GReg, ∃ h', run e 0 (movRmSel s (.reg r)) h = .next 0 h' ∧ h'.r .rcx = e.ctx ∧ h'.g = wrG h.g .d r ((e.sel s).setWidth 32)) ∧
    (∀ a : Ea, (e.ok a.lin 2 true = true → ∃ h', run e 0 (movRmSel s (.mem a)) h = .next 0 h' ∧ h'.r .rcx = e.ctx ∧
      h'.g = { h.g with mem := store h.g.mem a.lin 2 (e.sel s).toNat }) ∧
      (e.ok a.lin 2 true = false → run e 0 (movRmSel s (.mem a)) h = .fault h.g)) := by
  unfold movRmSel
  refine ⟨fun r => ?_, fun a => ⟨fun hk => ?_, fun hk => ?_⟩⟩
  · hexec' [hc]
    refine ⟨_, rfl, ?_⟩
    hexec' []
    exact ⟨hc, trivial⟩
  · have hk' : e.ok a.lin Sz.w.bytes true = true := hk
    hexec' [hc, hk']
    refine ⟨_, rfl, ?_⟩
    hexec' [rd_wr_d]
    refine ⟨trivial, ?_⟩
    have : ∀ x : BitVec 16, BitVec.setWidth 16 (BitVec.setWidth 32 x) = x := by intro x; bits16
    exact congrArg (fun x : BitVec 16 => ({ h.g with mem := store h.g.mem a.lin 2 x.toNat } : G)) (this _)
  · have hk' : e.ok a.lin Sz.w.bytes true = false := hk
    hexec' [hc, hk']

theorem view_off (e : Env) (s : Ss) (g : G) : Stack.off (view e s g (g.gpr 4)) = spOff s g := by
  unfold Stack.off spOff spMod view
  simp only
  have := (g.gpr 4).isLt
  split <;> omega
theorem view_mod (e : Env) (s : Ss) (g : G) (p : BitVec 32) : Stack.modulus (view e s g p) = spMod s := rfl
theorem view_lin (e : Env) (s : Ss) (g : G) (p : BitVec 32) (o : Nat) : Stack.lin (view e s g p) o = slot e o := rfl
theorem flat_view {e : Env} {s : Ss} (hf : FlatOk e s) (g : G) (p : BitVec 32) : Stack.Flat (view e s g p) := hf

theorem sz_bytes {z : Sz} (hz : z = .w ∨ z = .d) : z.bytes ≤ 4 := by rcases hz with rfl | rfl <;> decide

theorem setLow_low16 (r : BitVec 32) (v : BitVec 16) : (Stack.setLow r v).setWidth 16 = v := by
  unfold Stack.setLow; bits16

/-- Whether a push is allowed. -/
theorem push_some {e : Env} {s : Ss} (hf : FlatOk e s) (g : G) {z : Sz} (hz : z = .w ∨ z = .d) (v : Nat) :
    (Stack.push e.ok (view e s g (g.gpr 4)) z.bytes v).isSome = e.ok (slot e (down s g z.bytes)) z.bytes true := by
  rw [push_eq, Stack.addr_lin (flat_view hf _ _), view_lin]
  have : (itemOff s (pushed s (g.gpr 4) z.bytes)).toNat = down s g z.bytes := by
    obtain ⟨ss32, flat⟩ := s
    have hl := (g.gpr 4).isLt
    have hb : 0 < z.bytes ∧ z.bytes ≤ 4 := by rcases hz with rfl | rfl <;> decide
    cases ss32
    · have : itemOff ⟨false, flat⟩ (pushed ⟨false, flat⟩ (g.gpr 4) z.bytes) =
        (((g.gpr 4).setWidth 16 : BitVec 16) - BitVec.ofNat 16 z.bytes).setWidth 32 := by
        show ((Stack.setLow _ _).setWidth 16).setWidth 32 = _
        rw [setLow_low16, neg_low, BitVec.sub_eq_add_neg]
      rw [this]
      unfold down spOff spMod
      simp only [BitVec.toNat_setWidth, BitVec.toNat_sub, BitVec.toNat_ofNat, Bool.false_eq_true, if_false]
      omega
    · have : itemOff ⟨true, flat⟩ (pushed ⟨true, flat⟩ (g.gpr 4) z.bytes) = g.gpr 4 - BitVec.ofNat 32 z.bytes := by
        show g.gpr 4 + _ = _
        rw [BitVec.sub_eq_add_neg]
      rw [this]
      unfold down spOff spMod
      simp only [BitVec.toNat_sub, BitVec.toNat_ofNat, if_true]
      omega
  rw [this]
  split
  · rename_i h; rw [h]; rfl
  · rename_i h; simp only [Bool.not_eq_true] at h; rw [h]; rfl

theorem back_spAt {e : Env} {s : Ss} (g : G) {t : Stack.St} {o : Nat} (ho : Stack.off t = o)
    (hs : Stack.SameSeg (view e s g (g.gpr 4)) t) : SpAt s g (back g t) o t.mem := by
  refine ⟨?_, fun h0 => hs.2.2.2.2 h0, fun i hi => if_neg hi, rfl, rfl⟩
  subst ho
  unfold Stack.off spOff spMod
  rw [hs.2.1]
  have h4 : (back g t).gpr 4 = t.esp := rfl
  rw [h4]
  have := t.esp.isLt
  show _ = if s.ss32 = true then _ else _
  split <;> omega

/-- gen_stack_push, in the terms of the specification. -/
theorem push_spec {e : Env} {h : St} (hc : h.r .rcx = e.ctx) {s : Ss} (hf : FlatOk e s) {z : Sz} (hz : z = .w ∨ z = .d) (v : Option (BitVec 64)) :
    (e.ok (slot e (down s h.g z.bytes)) z.bytes true = true → ∃ h', run e 0 (pushCode s z v) h = .next 0 h' ∧ h'.r .rcx = e.ctx ∧ h'.loc = h.loc ∧
      SpAt s h.g h'.g (down s h.g z.bytes) (store h.g.mem (slot e (down s h.g z.bytes)) z.bytes (pushVal h z v).toNat)) ∧
    (e.ok (slot e (down s h.g z.bytes)) z.bytes true = false → run e 0 (pushCode s z v) h = .fault h.g) := by
  have hr := pushCode_run hc s z v
  have hp := push_some hf h.g hz (pushVal h z v).toNat
  rw [← hp]
  cases hq : Stack.push e.ok (view e s h.g (h.g.gpr 4)) z.bytes (pushVal h z v).toNat with
  | none =>
    rw [hq] at hr
    exact ⟨fun h => (by cases h), fun _ => hr⟩
  | some t =>
    rw [hq] at hr
    obtain ⟨h', r', g', c', l'⟩ := hr
    obtain ⟨a1, a2, a3, a4⟩ := Stack.C66_push e.ok (flat_view hf _ _) (sz_bytes hz) hq
    rw [view_off, view_mod] at a1
    refine ⟨fun _ => ⟨h', r', c', l', ?_⟩, fun h => by cases h⟩
    rw [g']
    have := back_spAt h.g a1 a3
    rw [a2, a1] at this
    exact this

/-- C98, PUSH of a register, memory, an immediate or a selector: the operand, as it was before, at the new top of the stack, and nothing
else changes; on a fault nothing at all. -/
theorem C98_push {z : Sz} (hz : z = .w ∨ z = .d) (e : Env) (h : St) (hc : h.r .rcx = e.ctx) {s : Ss} (hf : FlatOk e s) (p : PushOp) :
    ((PushOp.ok e z p && e.ok (slot e (down s h.g z.bytes)) z.bytes true) = true → ∃ h', run e 0 (pushInsn s z p) h = .next 0 h' ∧ h'.r .rcx = e.ctx ∧
      SpAt s h.g h'.g (down s h.g z.bytes) (store h.g.mem (slot e (down s h.g z.bytes)) z.bytes (PushOp.val e h.g z p).toNat)) ∧
    ((PushOp.ok e z p && e.ok (slot e (down s h.g z.bytes)) z.bytes true) = false → run e 0 (pushInsn s z p) h = .fault h.g) := by
  have key : ∀ (pre : List I) (h1 : St) (v : Option (BitVec 64)), run e 0 pre h = .next 0 h1 → h1.g = h.g → h1.r .rcx = e.ctx →
      pushVal h1 z v = PushOp.val e h.g z p → pushInsn s z p = pre ++ pushCode s z v →
      (e.ok (slot e (down s h.g z.bytes)) z.bytes true = true → ∃ h', run e 0 (pushInsn s z p) h = .next 0 h' ∧ h'.r .rcx = e.ctx ∧
        SpAt s h.g h'.g (down s h.g z.bytes) (store h.g.mem (slot e (down s h.g z.bytes)) z.bytes (PushOp.val e h.g z p).toNat)) ∧
      (e.ok (slot e (down s h.g z.bytes)) z.bytes true = false → run e 0 (pushInsn s z p) h = .fault h.g) := by
    intro pre h1 v r1 g1 c1 v1 hcode
    have := push_spec c1 hf hz v
    rw [g1, v1] at this
    rw [hcode, run_append _ r1]
    exact ⟨fun hk => (this.1 hk).imp fun h' hh => ⟨hh.1, hh.2.1, hh.2.2.2⟩, this.2⟩
  cases p with
  | reg r =>
    simp only [PushOp.ok, Bool.true_and]
    refine key [.ldG z .r8 r] (wr h z .r8 (rdG h.g z r)) none (by hexec' [hc]) rfl (by hexec' []; exact hc) ?_ rfl
    show rd _ z .r8 = _
    rw [rd_wr_same]; rfl
  | imm v =>
    simp only [PushOp.ok, Bool.true_and]
    exact key [] h (some v) rfl rfl hc rfl rfl
  | sel i =>
    simp only [PushOp.ok, Bool.true_and]
    refine key [.ldSel (z = .d) .r8 i] _ none (by hexec' [hc]; rfl) (by split <;> rfl) (by split <;> (hexec' []; exact hc)) ?_ rfl
    rcases hz with rfl | rfl
    · show rd _ .w .r8 = _
      rw [if_neg (by decide), rd_wr_same]
      exact (BitVec.setWidth_eq (e.sel i)).symm
    · show rd _ .d .r8 = _
      rw [if_pos (by decide), rd_wr_same]; rfl
  | mem a =>
    simp only [PushOp.ok]
    by_cases hk : e.ok a.lin z.bytes false = true
    · simp only [hk, Bool.true_and]
      refine key [.ea a, .ldMem z, .mov z .r8 (.reg .rax)] _ none (by hexec' [hc, hk]; rfl) (by hexec' []) (by hexec' []) ?_ rfl
      show rd _ z .r8 = _
      hexec' []
      rfl
    · simp only [Bool.not_eq_true] at hk
      rw [hk, Bool.false_and]
      refine ⟨fun h => (by cases h), fun _ => ?_⟩
      exact run_append_fault (a := [.ea a, .ldMem z, .mov z .r8 (.reg .rax)]) _ (by hexec' [hc, hk])

theorem popVal_spec {e : Env} {s : Ss} (hf : FlatOk e s) (g : G) {z : Sz} (hz : z = .w ∨ z = .d) :
    (e.ok (slot e (spOff s g)) z.bytes false = true → ∃ p, Stack.popVal e.ok (view e s g (g.gpr 4)) z.bytes =
      some (load g.mem (slot e (spOff s g)) z.bytes, p) ∧ SpAt s g (setEsp g p) (up s g z.bytes) g.mem) ∧
    (e.ok (slot e (spOff s g)) z.bytes false = false → Stack.popVal e.ok (view e s g (g.gpr 4)) z.bytes = none) := by
  refine ⟨fun hk => ?_, fun hk => ?_⟩
  · obtain ⟨t, p1, p2, p3, p4⟩ := Stack.C66_pop e.ok (s := view e s g (g.gpr 4)) (flat_view hf _ _) (sz_bytes hz) (by rw [view_off, view_lin]; exact hk)
    rw [view_off, view_lin] at p1
    rw [view_off, view_mod] at p2
    unfold Stack.pop at p1
    cases hq : Stack.popVal e.ok (view e s g (g.gpr 4)) z.bytes with
    | none => rw [hq] at p1; cases p1
    | some q =>
      rw [hq] at p1
      obtain ⟨v, p⟩ := q
      have p1' := Option.some.inj p1
      obtain ⟨q1, q2⟩ := Prod.mk.inj p1'
      simp only at q1 q2
      subst q2
      have := back_spAt g p2 p4
      rw [p3] at this
      exact ⟨p, by rw [q1]; rfl, this⟩
  · rw [popVal_eq, Stack.addr_lin (flat_view hf _ _), view_lin]
    have : (itemOff s (g.gpr 4)).toNat = spOff s g := by
      unfold itemOff spOff spMod
      have := (g.gpr 4).isLt
      split
      · omega
      · simp only [BitVec.toNat_setWidth]; omega
    rw [this, hk]
    rfl

/-- C98, POP to a register: the item at the top of the stack; the register is written last (POP ESP leaves the item in ESP). -/
theorem C98_pop {z : Sz} (hz : z = .w ∨ z = .d) (e : Env) (h : St) (hc : h.r .rcx = e.ctx) {s : Ss} (hf : FlatOk e s) (r : GReg) :
    (e.ok (slot e (spOff s h.g)) z.bytes false = true → ∃ h' g1, run e 0 (popInsn s z (.reg r)) h = .next 0 h' ∧ h'.r .rcx = e.ctx ∧
      SpAt s h.g g1 (up s h.g z.bytes) h.g.mem ∧
      h'.g = wrG g1 z r (BitVec.ofNat z.bits (load h.g.mem (slot e (spOff s h.g)) z.bytes))) ∧
    (e.ok (slot e (spOff s h.g)) z.bytes false = false → run e 0 (popInsn s z (.reg r)) h = .fault h.g) := by
  obtain ⟨s1, s2⟩ := popVal_spec hf h.g hz
  have hr := popCode_run hc s z true
  refine ⟨fun hk => ?_, fun hk => ?_⟩
  · obtain ⟨p, p1, p2⟩ := s1 hk
    rw [p1] at hr
    obtain ⟨-, -, h1, r1, g1, c1, -, v1, -⟩ := hr
    rw [if_pos rfl] at g1
    have r2 : run e 0 [.stG z r .r8] h1 = .next 0 (h1.setG (wrG h1.g z r (rd h1 z .r8))) := by hexec' [c1]
    refine ⟨h1.setG (wrG h1.g z r (rd h1 z .r8)), setEsp h.g p, ?_, ?_, p2, ?_⟩
    · show run e 0 (popCode s z true ++ [.stG z r .r8]) h = _
      rw [run_append _ r1, r2]
    · exact c1
    · rw [v1, g1]; rfl
  · rw [s2 hk] at hr
    exact run_append_fault _ hr

/-- C98, POP to memory: the item at the top of the stack, stored at the operand's address, and ESP written only after that, so a fault changes
nothing.  Missing: the address is the one computed before the pop, also if it depends on ESP (C98_pop_mem_violation). -/
theorem C98_pop_mem_partial {z : Sz} (hz : z = .w ∨ z = .d) (e : Env) (h : St) (hc : h.r .rcx = e.ctx) {s : Ss} (hf : FlatOk e s) (a : Ea) :
    ((e.ok (slot e (spOff s h.g)) z.bytes false && e.ok a.lin z.bytes true) = true → ∃ h', run e 0 (popInsn s z (.mem a)) h = .next 0 h' ∧
      h'.r .rcx = e.ctx ∧
      SpAt s h.g h'.g (up s h.g z.bytes) (store h.g.mem a.lin z.bytes (load h.g.mem (slot e (spOff s h.g)) z.bytes))) ∧
    ((e.ok (slot e (spOff s h.g)) z.bytes false && e.ok a.lin z.bytes true) = false → run e 0 (popInsn s z (.mem a)) h = .fault h.g) := by
  obtain ⟨s1, s2⟩ := popVal_spec hf h.g hz
  obtain ⟨h1, r1, g1, c1, l1⟩ : ∃ h1, run e 0 [.ea a, .stL .d 0 .rdx] h = .next 0 h1 ∧ h1.g = h.g ∧ h1.r .rcx = e.ctx ∧
      rdL h1 .d 0 = a.lin := by
    hexec' [hc]
    refine ⟨_, rfl, ?_⟩
    hexec' [hc]
    exact ⟨trivial, trivial, trivial⟩
  have hr := popCode_run c1 s z false
  rw [g1] at hr
  have hcode : popInsn s z (.mem a) = [.ea a, .stL .d 0 .rdx] ++ (popCode s z false ++ ([.ldL .d .rdx 0] ++ ([.stMem z] ++ [.stG (spSz s.ss32) esp .rbx]))) := rfl
  rw [hcode, run_append _ r1]
  by_cases hk : e.ok (slot e (spOff s h.g)) z.bytes false = true
  · obtain ⟨p, p1, p2⟩ := s1 hk
    rw [p1] at hr
    obtain ⟨pe, vb, h2, r2, g2, c2, q2, v2, l2⟩ := hr
    rw [if_neg (by decide)] at g2
    obtain ⟨h3, r3, g3, k3, a3⟩ : ∃ h3, run e 0 [.ldL .d .rdx 0] h2 = .next 0 h3 ∧ h3.g = h2.g ∧ (∀ r, r ≠ .rdx → h3.r r = h2.r r) ∧
        rd h3 .d .rdx = a.lin := by
      hexec' []
      refine ⟨_, rfl, rfl, fun r hr => by rw [wr_r_ne _ _ hr], ?_⟩
      hexec' []
      unfold rdL at l1 ⊢
      rw [l2]; exact l1
    have c3 : h3.r .rcx = e.ctx := (k3 _ (by simp)).trans c2
    have v3 : rd h3 z .r8 = BitVec.ofNat z.bits (load h.g.mem (slot e (spOff s h.g)) z.bytes) := by
      rw [← v2]; exact congrArg (BitVec.setWidth z.bits) (k3 _ (by simp))
    have v3n : (rd h3 z .r8).toNat = load h.g.mem (slot e (spOff s h.g)) z.bytes := by
      rw [v3, BitVec.toNat_ofNat, Nat.mod_eq_of_lt vb]
    have g3' : h3.g = h.g := g3.trans g2
    obtain ⟨t1, t2⟩ := stMem_run c3 z
    rw [a3, v3n, g3'] at t1
    rw [a3, g3'] at t2
    rw [run_append _ r2, run_append _ r3, hk, Bool.true_and]
    refine ⟨fun hw => ?_, fun hw => run_append_fault _ (t2 hw)⟩
    obtain ⟨h4, r4, g4, c4, b4, l4⟩ := t1 hw
    rw [run_append _ r4]
    have q4 : Ptr s h4 p := ptr_same (ptr_same q2 (k3 _ (by simp))) b4
    obtain ⟨h5, r5, g5, k5, l5⟩ := stSp_run c4 s p q4 (fun h0 => by
      rw [g4, pe]
      exact pushed_high s _ _ h0)
    refine ⟨h5, r5, by rw [k5]; exact c4, ?_⟩
    rw [g5, g4]
    exact ⟨p2.off, p2.high, p2.regs, p2.flags, rfl⟩
  · simp only [Bool.not_eq_true] at hk
    rw [s2 hk] at hr
    rw [hk, Bool.false_and]
    exact ⟨fun h => (by cases h), fun _ => run_append_fault _ hr⟩

/-- C98, LEAVE: (E)SP takes (E)BP and EBP the item there.  Missing: a fault leaves ESP changed. -/
theorem C98_leave_partial {z : Sz} (hz : z = .w ∨ z = .d) (e : Env) (h : St) (hc : h.r .rcx = e.ctx) {s : Ss} (hf : FlatOk e s) :
    let o := (h.g.gpr 5).toNat % spMod s
    (e.ok (slot e o) z.bytes false = true → ∃ h' g1, run e 0 (leave s z) h = .next 0 h' ∧ h'.r .rcx = e.ctx ∧
      SpAt s h.g g1 ((o + z.bytes) % spMod s) h.g.mem ∧
      h'.g = wrG g1 z ebp (BitVec.ofNat z.bits (load h.g.mem (slot e o) z.bytes))) ∧
    (e.ok (slot e o) z.bytes false = false → ∃ g1, run e 0 (leave s z) h = .fault g1 ∧ SpAt s h.g g1 o h.g.mem) := by
  intro o
  obtain ⟨h1, r1, g1, c1⟩ : ∃ h1, run e 0 [.ldG (spSz s.ss32) .rax ebp, .stG (spSz s.ss32) esp .rax] h = .next 0 h1 ∧
      h1.g = wrG h.g (spSz s.ss32) esp (rdG h.g (spSz s.ss32) ebp) ∧ h1.r .rcx = e.ctx := by
    generalize hw : spSz s.ss32 = w
    hexec' [hc]
    refine ⟨_, rfl, ?_⟩
    hexec' [hc]
    trivial
  have hs : SpAt s h.g h1.g o h.g.mem := by
    rw [g1]
    obtain ⟨ss32, flat⟩ := s
    have e4 : ∀ (w : Sz) (v : BitVec w.bits) (i : Fin 8), i ≠ 4 → (wrG h.g w esp v).gpr i = h.g.gpr i := fun w v i hi => if_neg hi
    cases ss32
    · have e5 : (wrG h.g .w esp (rdG h.g .w ebp)).gpr 4 = Stack.setLow (h.g.gpr 4) ((h.g.gpr 5).setWidth 16) := rfl
      have e6 := Stack.setLow_toNat (h.g.gpr 4) ((h.g.gpr 5).setWidth 16)
      rw [BitVec.toNat_setWidth] at e6
      refine ⟨?_, fun _ => ?_, e4 _ _, rfl, rfl⟩
      · show ((wrG h.g .w esp (rdG h.g .w ebp)).gpr 4).toNat % 2 ^ 16 = (h.g.gpr 5).toNat % 2 ^ 16
        rw [e5, e6]; omega
      · show ((wrG h.g .w esp (rdG h.g .w ebp)).gpr 4).toNat / 2 ^ 16 = _
        rw [e5, e6]; omega
    · have e5 : (wrG h.g .d esp (rdG h.g .d ebp)).gpr 4 = h.g.gpr 5 := rfl
      refine ⟨?_, fun h => (by cases h), e4 _ _, rfl, rfl⟩
      show ((wrG h.g .d esp (rdG h.g .d ebp)).gpr 4).toNat % 2 ^ 32 = (h.g.gpr 5).toNat % 2 ^ 32
      rw [e5]
  obtain ⟨s1, s2⟩ := popVal_spec hf h1.g hz
  have hr := popCode_run c1 s z true
  rw [hs.off] at s1 s2
  rw [hs.mem] at s1
  have hcode : leave s z = [.ldG (spSz s.ss32) .rax ebp, .stG (spSz s.ss32) esp .rax] ++ (popCode s z true ++ [.stG z ebp .r8]) := rfl
  rw [hcode, run_append _ r1]
  refine ⟨fun hk => ?_, fun hk => ?_⟩
  · obtain ⟨p, p1, p2⟩ := s1 hk
    rw [p1] at hr
    obtain ⟨-, -, h2, r2, g2, c2, -, v2, -⟩ := hr
    rw [if_pos rfl] at g2
    have r3 : run e 0 [.stG z ebp .r8] h2 = .next 0 (h2.setG (wrG h2.g z ebp (rd h2 z .r8))) := by hexec' [c2]
    have hu : up s h1.g z.bytes = (o + z.bytes) % spMod s := by unfold up; rw [hs.off]
    refine ⟨h2.setG (wrG h2.g z ebp (rd h2 z .r8)), setEsp h1.g p, ?_, c2, ⟨p2.off.trans hu, fun h0 => (p2.high h0).trans (hs.high h0),
      fun i hi => (p2.regs i hi).trans (hs.regs i hi), p2.flags.trans hs.flags, p2.mem⟩, ?_⟩
    · rw [run_append _ r2, r3]
    · rw [v2, g2]; rfl
  · rw [s2 hk] at hr
    exact ⟨h1.g, run_append_fault _ hr, hs⟩

theorem item_gp (e : Env) (s : Ss) (g : G) {z : Sz} (hz : z = .w ∨ z = .d) (i : Fin 8) :
    Stack.item (gp e s g) z.bytes i.val = (rdG g z ⟨i, false⟩).toNat := by
  unfold Stack.item
  rw [gp_get, rdG_val g hz i]

theorem item_lt (g : G) {z : Sz} (hz : z = .w ∨ z = .d) (r : GReg) : (rdG g z r).toNat < 256 ^ z.bytes := by
  rcases hz with rfl | rfl
  · exact (rdG g .w r).isLt
  · exact (rdG g .d r).isLt

theorem below_view (e : Env) (s : Ss) (g : G) (n : Nat) : Stack.below (view e s g (g.gpr 4)) n = down s g n := by
  unfold Stack.below down
  rw [view_off, view_mod]

/-- C98, PUSHA: the eight registers as they were before (ESP too), EAX first, in the eight items below the top of the stack; nothing else changes.  If one
of the items may not be written, no register changes. -/
theorem C98_pusha {z : Sz} (hz : z = .w ∨ z = .d) (e : Env) (h : St) (hc : h.r .rcx = e.ctx) {s : Ss} (hf : FlatOk e s) :
    ((∀ i : Fin 8, e.ok (slot e (down s h.g (z.bytes * (i.val + 1)))) z.bytes true = true) →
      ∃ h', run e 0 (pusha s z) h = .next 0 h' ∧ h'.r .rcx = e.ctx ∧ SpAt s h.g h'.g (down s h.g (z.bytes * 8)) h'.g.mem ∧
        (∀ i : Fin 8, load h'.g.mem (slot e (down s h.g (z.bytes * (i.val + 1)))) z.bytes = (rdG h.g z ⟨i, false⟩).toNat) ∧
        ∀ a, (∀ (i : Fin 8) b, b < z.bytes → a ≠ slot e (down s h.g (z.bytes * (i.val + 1))) + BitVec.ofNat 32 b) → h'.g.mem a = h.g.mem a) ∧
    (¬ (∀ i : Fin 8, e.ok (slot e (down s h.g (z.bytes * (i.val + 1)))) z.bytes true = true) →
      ∃ g', run e 0 (pusha s z) h = .fault g' ∧ g'.gpr = h.g.gpr ∧ g'.fl = h.g.fl) := by
  obtain ⟨h1, r1, g1, k1, l1, p1⟩ := ldSp_run hc s
  have c1 : h1.r .rcx = e.ctx := (k1 _ (by simp)).trans hc
  have hk := sz_bytes hz
  have hr := pushaItems_run s hz h.g [0, 1, 2, 3, 4, 5, 6, 7] h1 (view e s h.g (h.g.gpr 4)) c1 (by rw [g1]) (by rw [g1]; rfl) p1 (fun _ => rfl)
  have hmap : ([0, 1, 2, 3, 4, 5, 6, 7] : List (Fin 8)).map Fin.val = [0, 1, 2, 3, 4, 5, 6, 7] := rfl
  rw [hmap, g1] at hr
  have hopt := Stack.pushaLoop_opt e.ok z.bytes (gp e s h.g) [0, 1, 2, 3, 4, 5, 6, 7] (view e s h.g (h.g.gpr 4))
  generalize hl : (([0, 1, 2, 3, 4, 5, 6, 7] : List Nat).map fun i => (z.bytes, Stack.item (gp e s h.g) z.bytes i)) = l at hopt
  have hl' : l = (([0, 1, 2, 3, 4, 5, 6, 7] : List Nat).map (Stack.item (gp e s h.g) z.bytes)).map fun v => (z.bytes, v) := by rw [← hl]; rfl
  have hM := Stack.modulus_ge (view e s h.g (h.g.gpr 4))
  have hfv := flat_view hf h.g (h.g.gpr 4)
  have hsz : ∀ p ∈ l, p.1 = z.bytes := by
    intro p hp; rw [← hl, List.mem_map] at hp; obtain ⟨i, -, rfl⟩ := hp; rfl
  have hlen : l.length = 8 := by rw [← hl]; rfl
  unfold pusha
  rw [run_append _ r1]
  cases hp : Stack.pushaLoop e.ok z.bytes (gp e s h.g) [0, 1, 2, 3, 4, 5, 6, 7] (view e s h.g (h.g.gpr 4)) with
  | ok t =>
    rw [hp] at hr hopt
    have hall : Stack.pushAll e.ok (view e s h.g (h.g.gpr 4)) l = some t := hopt.symm
    obtain ⟨q1, q2⟩ := Stack.pushAll_read e.ok l _ t (fun p hp => by rw [hsz p hp]; exact hk) hfv (by
      rw [Stack.total_const hsz, hlen]; omega) hall
    have hsame := Stack.pushAll_same e.ok _ (fun p hp => by rw [hsz p hp]; exact hk) _ _ hfv hall
    rw [Stack.total_const hsz, hlen, below_view] at q1
    have q3 : ∀ i : Fin 8, load t.mem (slot e (down s h.g (z.bytes * (i.val + 1)))) z.bytes = (rdG h.g z ⟨i, false⟩).toNat ∧
        e.ok (slot e (down s h.g (z.bytes * (i.val + 1)))) z.bytes true = true := by
      intro i
      have := q2 i.val (by rw [hlen]; exact i.isLt)
      rw [Stack.total_const (fun p hp => hsz p (List.mem_of_mem_take hp)), List.length_take, Nat.min_eq_left (show i.val + 1 ≤ l.length by omega), below_view, view_lin] at this
      have hi : l[i.val]'(by rw [hlen]; exact i.isLt) = (z.bytes, (rdG h.g z ⟨i, false⟩).toNat) := by
        simp only [← hl, List.getElem_map]
        have hg : ([0, 1, 2, 3, 4, 5, 6, 7] : List Nat)[i.val]'i.isLt = i.val := by
          obtain ⟨j, hj⟩ := i
          rcases j with _ | _ | _ | _ | _ | _ | _ | _ | j <;> first | rfl | omega
        rw [hg, item_gp e s h.g hz]
      rw [hi] at this
      simp only at this
      rw [Nat.mod_eq_of_lt (item_lt h.g hz _)] at this
      exact this
    refine ⟨fun _ => ?_, fun hn => absurd (fun i => (q3 i).2) hn⟩
    obtain ⟨t1, t2, h2, r2, g2, c2, p2⟩ := hr
    obtain ⟨h3, r3, g3, k3, l3⟩ := stSp_run c2 s t.esp p2 (fun h0 => by rw [g2]; exact t2 h0)
    rw [run_append _ r2]
    have hg : h3.g = back h.g t := by rw [g3, g2]; rfl
    refine ⟨h3, r3, by rw [k3]; exact c2, ?_, ?_, ?_⟩
    · rw [hg]; exact back_spAt h.g q1 hsame
    · intro i; rw [hg]; exact (q3 i).1
    · intro a ha
      rw [hg]
      refine Stack.pushAll_outside e.ok z.bytes hk a _ _ t hfv (by
        simp only [List.length_map, List.length_cons, List.length_nil]; omega) (hl' ▸ hall) fun j b hj hb => ?_
      rw [below_view, view_lin]
      exact ha ⟨j, by simpa using hj⟩ b hb
  | error t =>
    rw [hp] at hr hopt
    obtain ⟨t1, r2⟩ := hr
    refine ⟨fun ha => ?_, fun _ => ⟨_, run_append_fault _ r2, rfl, rfl⟩⟩
    obtain ⟨u, hu⟩ := Stack.pushAll_some e.ok z.bytes hk (([0, 1, 2, 3, 4, 5, 6, 7] : List Nat).map (Stack.item (gp e s h.g) z.bytes))
      (view e s h.g (h.g.gpr 4)) hfv (by simp only [List.length_map, List.length_cons, List.length_nil]; omega) (fun j hj => by
        rw [below_view, view_lin]
        exact ha ⟨j, by simpa using hj⟩)
    rw [← hl', ← hopt] at hu
    cases hu

/-- C98, POPA: the registers, EDI first, from the eight items at the top of the stack; the item of ESP is skipped, memory and flags stay.  If one of the other
items may not be read, neither ESP nor memory nor the flags change. -/
theorem C98_popa {z : Sz} (hz : z = .w ∨ z = .d) (e : Env) (h : St) (hc : h.r .rcx = e.ctx) {s : Ss} (hf : FlatOk e s) :
    ((∀ i : Fin 8, i ≠ 4 → e.ok (slot e (up s h.g (z.bytes * (7 - i.val)))) z.bytes false = true) →
      ∃ h', run e 0 (popa s z) h = .next 0 h' ∧ h'.r .rcx = e.ctx ∧ spOff s h'.g = up s h.g (z.bytes * 8) ∧
        (s.ss32 = false → (h'.g.gpr 4).toNat / 2 ^ 16 = (h.g.gpr 4).toNat / 2 ^ 16) ∧ h'.g.mem = h.g.mem ∧ h'.g.fl = h.g.fl ∧
        ∀ i : Fin 8, i ≠ 4 → h'.g.gpr i = (wrG h.g z ⟨i, false⟩
          (BitVec.ofNat z.bits (load h.g.mem (slot e (up s h.g (z.bytes * (7 - i.val)))) z.bytes))).gpr i) ∧
    (¬ (∀ i : Fin 8, i ≠ 4 → e.ok (slot e (up s h.g (z.bytes * (7 - i.val)))) z.bytes false = true) →
      ∃ g', run e 0 (popa s z) h = .fault g' ∧ g'.gpr 4 = h.g.gpr 4 ∧ g'.mem = h.g.mem ∧ g'.fl = h.g.fl) := by
  obtain ⟨h1, r1, g1, k1, l1, p1⟩ := ldSp_run hc s
  have c1 : h1.r .rcx = e.ctx := (k1 _ (by simp)).trans hc
  have hk := sz_bytes hz
  have hr := popaItems_run s hz [7, 6, 5, 4, 3, 2, 1, 0] h1 (h.g.gpr 4) c1 p1 (fun _ => by rw [g1])
  have hmap : ([7, 6, 5, 4, 3, 2, 1, 0] : List (Fin 8)).map Fin.val = [7, 6, 5, 4, 3, 2, 1, 0] := rfl
  rw [hmap, g1] at hr
  have hfv : Stack.Flat (gp e s h.g).st := flat_view hf h.g (h.g.gpr 4)
  have hoff : Stack.offB (gp e s h.g).st (h.g.gpr 4) = spOff s h.g := view_off e s h.g
  have hmod : Stack.modulus (gp e s h.g).st = spMod s := rfl
  have hlin : ∀ o, Stack.lin (gp e s h.g).st o = slot e o := fun _ => rfl
  have hix : ∀ j (hj : j < 8), ([7, 6, 5, 4, 3, 2, 1, 0] : List Nat)[j]'hj = 7 - j := by
    intro j hj
    rcases j with _ | _ | _ | _ | _ | _ | _ | _ | j <;> first | rfl | omega
  unfold popa
  rw [run_append _ r1]
  refine ⟨fun ha => ?_, fun hn => ?_⟩
  · obtain ⟨bx, r, q1, q2, q3, q4, q5⟩ := Stack.popaLoop_run e.ok z.bytes hk
      (fun i => load h.g.mem (slot e (up s h.g (z.bytes * (7 - i)))) z.bytes) [7, 6, 5, 4, 3, 2, 1, 0] (h.g.gpr 4) (gp e s h.g) hfv (by decide) (by
        intro j hj hne
        have hj8 : j < 8 := by simpa using hj
        rw [hix j hj8] at hne ⊢
        rw [hoff, hmod, hlin, show 7 - (7 - j) = j by omega]
        refine ⟨?_, rfl⟩
        have := ha ⟨7 - j, by omega⟩ (fun h => hne (congrArg Fin.val h))
        simp only [show 7 - (7 - j) = j by omega] at this
        exact this)
    rw [q1] at hr
    obtain ⟨t1, t2, t3, h2, r2, g2, c2, p2⟩ := hr
    have g24 : h2.g.gpr 4 = h.g.gpr 4 := by rw [g2]; exact t3
    obtain ⟨h3, r3, g3, k3, l3⟩ := stSp_run c2 s bx p2 (fun h0 => by rw [g24]; exact t2 h0)
    rw [run_append _ r2]
    have e4 : h3.g.gpr 4 = bx := by rw [g3]; rfl
    refine ⟨h3, r3, by rw [k3]; exact c2, ?_, ?_, ?_, ?_, ?_⟩
    · rw [hoff, hmod] at q2
      have : Stack.offB (gp e s h.g).st bx = spOff s h3.g := by
        have hb := bx.isLt
        unfold Stack.offB spOff spMod
        rw [e4]
        show (if s.ss32 = true then _ else _) = _
        split <;> omega
      rw [← this, q2]; rfl
    · intro h0; rw [e4]; exact q3 h0
    · rw [g3, g2]; exact q4.2.2.2.2
    · rw [g3, g2]; rfl
    · intro i hi
      have e5 : h3.g.gpr i = r.get i.val := by
        rw [g3, g2]
        show (if i = 4 then _ else _) = _
        rw [if_neg hi]; rfl
      rw [e5, q5, if_pos ⟨by
        obtain ⟨j, hj⟩ := i
        simp only [List.mem_cons, List.not_mem_nil, or_false]; omega, fun h => hi (Fin.ext h)⟩, gp_get]
      rcases hz with rfl | rfl <;>
      · show _ = if i = i then _ else _
        rw [if_pos rfl]; rfl
  · cases hp : Stack.popaLoop e.ok z.bytes [7, 6, 5, 4, 3, 2, 1, 0] (h.g.gpr 4) (gp e s h.g) with
    | ok x =>
      exfalso
      apply hn
      intro i hi
      have := Stack.popaLoop_reads e.ok z.bytes hk _ _ _ _ hfv hp (7 - i.val) (by simp only [List.length_cons, List.length_nil]; omega) (by
        rw [hix _ (by omega)]
        intro h; apply hi; apply Fin.ext
        show i.val = 4
        omega)
      rw [hoff, hmod, hlin] at this
      exact this
    | error r =>
      rw [hp] at hr
      obtain ⟨t1, r2⟩ := hr
      refine ⟨_, run_append_fault _ r2, ?_, ?_, rfl⟩
      · have a := (Stack.popaLoop_error e.ok z.bytes _ _ _ _ hp).st
        show r.st.esp = _
        rw [a]; rfl
      · have a := (Stack.popaLoop_error e.ok z.bytes _ _ _ _ hp).st
        show r.st.mem = _
        rw [a]; rfl

theorem up_down {s : Ss} {g g' : G} {n m : Nat} (h : spOff s g' = down s g n) (hm : m ≤ n) (hn : n ≤ spMod s) : up s g' m = down s g (n - m) := by
  unfold up
  rw [h]
  unfold down
  rw [Nat.mod_add_mod]
  congr 1
  omega

theorem down_zero (s : Ss) (g : G) : down s g 0 = spOff s g := by
  have : spOff s g < spMod s := Nat.mod_lt _ (by unfold spMod; split <;> decide)
  unfold down
  rw [Nat.sub_zero, Nat.add_mod_right, Nat.mod_eq_of_lt this]

theorem spMod_ge (s : Ss) : 2 ^ 16 ≤ spMod s := by unfold spMod; split <;> decide

/-- C98: PUSH and then POP, with the item unchanged in between, restores the stack pointer and moves the value pushed, whatever is between them. -/
theorem C98_push_pop {z : Sz} (hz : z = .w ∨ z = .d) (e e' : Env) (hrw : ∀ a, e.ok a z.bytes true = true → e'.ok a z.bytes false = true)
    (hseg : e'.seg 2 = e.seg 2) (h h1 h2 : St) (hc : h.r .rcx = e.ctx) (hc2 : h2.r .rcx = e'.ctx) {s : Ss} (hf : FlatOk e s) (p : PushOp) (r : GReg)
    (hr : run e 0 (pushInsn s z p) h = .next 0 h1) (h4 : h2.g.gpr 4 = h1.g.gpr 4)
    (hm : ∀ b, b < z.bytes → h2.g.mem (slot e (spOff s h1.g) + BitVec.ofNat 32 b) = h1.g.mem (slot e (spOff s h1.g) + BitVec.ofNat 32 b)) :
    ∃ h3 g3, run e' 0 (popInsn s z (.reg r)) h2 = .next 0 h3 ∧ g3.gpr 4 = h.g.gpr 4 ∧ (∀ i, i ≠ 4 → g3.gpr i = h2.g.gpr i) ∧ g3.mem = h2.g.mem ∧
      g3.fl = h2.g.fl ∧ h3.g = wrG g3 z r (PushOp.val e h.g z p) := by
  have hpush := C98_push hz e h hc hf p
  by_cases hk : (PushOp.ok e z p && e.ok (slot e (down s h.g z.bytes)) z.bytes true) = true
  · obtain ⟨h', r', -, sp⟩ := hpush.1 hk
    rw [hr] at r'
    obtain rfl : h1 = h' := by injection r'
    have hmod := spMod_ge s
    have hb := sz_bytes hz
    have hoff : spOff s h2.g = down s h.g z.bytes := by
      have : spOff s h2.g = spOff s h1.g := by unfold spOff; rw [h4]
      rw [this, sp.off]
    have hsl : ∀ o, slot e' o = slot e o := fun o => by unfold slot; rw [hseg]
    have hf' : FlatOk e' s := fun hx => hseg.trans (hf hx)
    have hpop := (C98_pop hz e' h2 hc2 hf' r).1 (by
      rw [hsl, hoff]
      simp only [Bool.and_eq_true] at hk
      exact hrw _ hk.2)
    obtain ⟨h3, g3, r3, -, sp3, hg3⟩ := hpop
    have hval : load h2.g.mem (slot e' (spOff s h2.g)) z.bytes = (PushOp.val e h.g z p).toNat := by
      have e1 : load h2.g.mem (slot e (spOff s h1.g)) z.bytes = load h1.g.mem (slot e (spOff s h1.g)) z.bytes := load_congr _ _ _ _ fun b hb => hm b hb
      have e2 : spOff s h2.g = spOff s h1.g := by unfold spOff; rw [h4]
      rw [hsl, e2, e1, sp.mem, sp.off, load_store _ _ _ _ _ (Nat.le_refl _) (by omega)]
      apply Nat.mod_eq_of_lt
      rcases hz with rfl | rfl
      · exact (PushOp.val e h.g .w p).isLt
      · exact (PushOp.val e h.g .d p).isLt
    refine ⟨h3, g3, r3, ?_, sp3.regs, sp3.mem, sp3.flags, ?_⟩
    · have e3 := sp3.off
      rw [up_down hoff (Nat.le_refl _) (by omega), Nat.sub_self, down_zero] at e3
      apply BitVec.eq_of_toNat_eq
      unfold spOff spMod at e3
      have l1 := (g3.gpr 4).isLt
      have l2 := (h.g.gpr 4).isLt
      cases h32 : s.ss32 with
      | true => simp only [h32, if_true] at e3; omega
      | false =>
        simp only [h32, Bool.false_eq_true, if_false] at e3
        have e4 := sp3.high h32
        rw [h4, sp.high h32] at e4
        omega
    · rw [hg3, hval, BitVec.ofNat_toNat, BitVec.setWidth_eq]
  · simp only [Bool.not_eq_true] at hk
    rw [hpush.2 hk] at hr
    cases hr

/-- C98: PUSHA and then POPA, with ESP the same again and the eight items unchanged in between, restores ESP and the registers (with 16 bit operands their lower halves), whatever
is in them before POPA. -/
theorem C98_pusha_popa {z : Sz} (hz : z = .w ∨ z = .d) (e e' : Env) (hrw : ∀ a, e.ok a z.bytes true = true → e'.ok a z.bytes false = true)
    (hseg : e'.seg 2 = e.seg 2) (h h1 h2 : St) (hc : h.r .rcx = e.ctx) (hc2 : h2.r .rcx = e'.ctx) {s : Ss} (hf : FlatOk e s)
    (hr : run e 0 (pusha s z) h = .next 0 h1) (h4 : h2.g.gpr 4 = h1.g.gpr 4)
    (hm : ∀ (i : Fin 8) b, b < z.bytes → h2.g.mem (slot e (up s h2.g (z.bytes * i.val)) + BitVec.ofNat 32 b) =
      h1.g.mem (slot e (up s h2.g (z.bytes * i.val)) + BitVec.ofNat 32 b)) :
    ∃ h3, run e' 0 (popa s z) h2 = .next 0 h3 ∧ h3.g.gpr 4 = h.g.gpr 4 ∧ h3.g.mem = h2.g.mem ∧ h3.g.fl = h2.g.fl ∧
      ∀ i : Fin 8, i ≠ 4 → h3.g.gpr i = (wrG h2.g z ⟨i, false⟩ (rdG h.g z ⟨i, false⟩)).gpr i := by
  have hpush := C98_pusha hz e h hc hf
  by_cases hk : ∀ i : Fin 8, e.ok (slot e (down s h.g (z.bytes * (i.val + 1)))) z.bytes true = true
  · obtain ⟨h', r', -, sp, hv, -⟩ := hpush.1 hk
    rw [hr] at r'
    obtain rfl : h1 = h' := by injection r'
    have hmod := spMod_ge s
    have hb := sz_bytes hz
    have hoff : spOff s h2.g = down s h.g (z.bytes * 8) := by
      have : spOff s h2.g = spOff s h1.g := by unfold spOff; rw [h4]
      rw [this, sp.off]
    have hud : ∀ i : Fin 8, up s h2.g (z.bytes * (7 - i.val)) = down s h.g (z.bytes * (i.val + 1)) := fun i => by
      have e1 : z.bytes * (7 - i.val) + z.bytes * (i.val + 1) = z.bytes * 8 := by rw [← Nat.mul_add]; congr 1; omega
      rw [up_down hoff (by omega) (by omega)]
      congr 1
      omega
    have hsl : ∀ o, slot e' o = slot e o := fun o => by unfold slot; rw [hseg]
    have hf' : FlatOk e' s := fun hx => hseg.trans (hf hx)
    obtain ⟨h3, r3, -, o3, hi3, m3, f3, v3⟩ := (C98_popa hz e' h2 hc2 hf').1 (fun i _ => by
      rw [hsl, hud i]
      exact hrw _ (hk i))
    refine ⟨h3, r3, ?_, m3, f3, fun i hi => ?_⟩
    · rw [up_down hoff (Nat.le_refl _) (by omega), Nat.sub_self, down_zero] at o3
      apply BitVec.eq_of_toNat_eq
      unfold spOff spMod at o3
      have l1 := (h3.g.gpr 4).isLt
      have l2 := (h.g.gpr 4).isLt
      cases h32 : s.ss32 with
      | true => simp only [h32, if_true] at o3; omega
      | false =>
        simp only [h32, Bool.false_eq_true, if_false] at o3
        have e4 := hi3 h32
        rw [h4, sp.high h32] at e4
        omega
    · have e1 : load h2.g.mem (slot e' (up s h2.g (z.bytes * (7 - i.val)))) z.bytes = (rdG h.g z ⟨i, false⟩).toNat := by
        rw [hsl, ← hv i, ← hud i]
        exact load_congr _ _ _ _ fun b hb => hm ⟨7 - i.val, by omega⟩ b hb
      rw [v3 i hi, e1, BitVec.ofNat_toNat, BitVec.setWidth_eq]
  · obtain ⟨g', r', -⟩ := hpush.2 hk
    rw [r'] at hr
    cases hr

/-- C98, MOV to a segment register (8E): the selector given to the load is the 16 bits of the operand.  Missing: with 32 bit operands four bytes are read. -/
theorem C98_load_sel_partial (z : Sz) (hz : z = .w ∨ z = .d) (e : Env) (h : St) (hc : h.r .rcx = e.ctx) :
    (∀ r : GReg, ∃ h', run e 0 (movSelRm z (.reg r)) h = .next 0 h' ∧ h'.r .rcx = e.ctx ∧ h'.g = h.g ∧ rd h' .w .rdx = rdG h.g .w r) ∧
    (∀ a : Ea, (e.ok a.lin z.bytes false = true → ∃ h', run e 0 (movSelRm z (.mem a)) h = .next 0 h' ∧ h'.r .rcx = e.ctx ∧ h'.g = h.g ∧
        rd h' .w .rdx = BitVec.ofNat 16 (load h.g.mem a.lin 2)) ∧
      (e.ok a.lin z.bytes false = false → run e 0 (movSelRm z (.mem a)) h = .fault h.g)) := by
  unfold movSelRm
  refine ⟨fun r => ?_, fun a => ⟨fun hk => ?_, fun hk => ?_⟩⟩
  · hexec' [hc]
    refine ⟨_, rfl, ?_⟩
    hexec' [hc]
    exact ⟨trivial, trivial, trivial⟩
  · hexec' [hc, hk]
    refine ⟨_, rfl, ?_⟩
    hexec' []
    refine ⟨trivial, trivial, ?_⟩
    rcases hz with rfl | rfl
    · rw [rd_wr_same]; rfl
    · rw [rd_wr_d]
      have := Seg.load_split h.g.mem a.lin
      apply BitVec.eq_of_toNat_eq
      show (BitVec.setWidth 16 (BitVec.ofNat 32 (load h.g.mem a.lin 4))).toNat = _
      rw [BitVec.toNat_setWidth, BitVec.toNat_ofNat, this]
      show _ = (BitVec.ofNat 16 _).toNat
      rw [BitVec.toNat_ofNat]
      omega
  · hexec' [hc, hk]

/-- C98, LEA: the low bits of the operand's offset (its operand has `addBase` false: the segment's base is left out), without any access. -/
theorem C98_lea (z : Sz) (e : Env) (h : St) (hc : h.r .rcx = e.ctx) (dst : GReg) (m : MemOp) (hm : Proper e m)
    (a0 : Ea) (a : BitVec 32) (ha : Address e h.g m a) :
    ∃ h', runWith e m 0 (lea z dst a0) h = .next 0 h' ∧ h'.r .rcx = e.ctx ∧ h'.g = wrG h.g z dst (a.setWidth z.bits) := by
  obtain ⟨b, hb, hr⟩ := C97_operand (.lea z dst) hc m hm
  obtain rfl := address_unique ha hb
  have h0 := hr a0
  simp only [MemInsn.code] at h0
  rw [h0]
  unfold lea
  hexec' [hc]
  refine ⟨_, rfl, ?_⟩
  hexec' [hc]
  exact ⟨trivial, by rw [rd_wr_d]⟩

/-- C98, MOV between a register and a memory operand given by registers, displacement and segment, its linear address `a` being computed by the emitted code. -/
theorem C98_mov_operand (z : Sz) (e : Env) (h : St) (hc : h.r .rcx = e.ctx) (r : GReg) (m : MemOp) (hm : Proper e m) (a0 : Ea) (a : BitVec 32)
    (ha : Address e h.g m a) :
    (e.ok a z.bytes true = true → ∃ h', runWith e m 0 (movRmR z r (.mem a0)) h = .next 0 h' ∧ h'.r .rcx = e.ctx ∧
      h'.g = { h.g with mem := store h.g.mem a z.bytes (rdG h.g z r).toNat }) ∧
    (e.ok a z.bytes true = false → runWith e m 0 (movRmR z r (.mem a0)) h = .fault h.g) ∧
    (e.ok a z.bytes false = true → ∃ h', runWith e m 0 (movRRm z r (.mem a0)) h = .next 0 h' ∧ h'.r .rcx = e.ctx ∧
      h'.g = wrG h.g z r (BitVec.ofNat z.bits (load h.g.mem a z.bytes))) ∧
    (e.ok a z.bytes false = false → runWith e m 0 (movRRm z r (.mem a0)) h = .fault h.g) := by
  obtain ⟨b, hb, hr⟩ := C97_operand (.movRmR z r) hc m hm
  obtain ⟨d, hd, hq⟩ := C97_operand (.movRRm z r) hc m hm
  obtain rfl := address_unique ha hb
  have h0 := hr a0
  have h1 := hq a0
  simp only [MemInsn.code] at h0 h1
  rw [h0, h1]
  have s1 := C98_mov_store z e h hc r (.mem b)
  have s2 := C98_mov_load z e h hc r (.mem d)
  have hl := address_unique hd hb
  simp only [ofRm, Opd.ok, Opd.set, Opd.get, hl] at s1 s2
  exact ⟨s1.1, s1.2, s2.1, s2.2⟩

/-! Non-trivial cases: a stack at 0x2000, ESP = 0x12340002 with a 16 bit stack (which wraps), 0x40 with a 32 bit stack. -/

/-- Example state. -/
def exStk (p : BitVec 32) : St :=
  { exSt with g := { exSt.g with gpr := fun i => if i = 4 then p else if i = 5 then 0x20#32 else 0xABCD0000#32 + BitVec.ofNat 32 i.val
                                 mem := fun a => a.setWidth 8 } }
/-- All of memory may be written. -/
def exRw : Env := { exEnv with ok := fun _ _ _ => true }
def ss16 : Ss := ⟨false, false⟩
def ss32 : Ss := ⟨true, false⟩

example : FlatOk exEnv ss16 ∧ FlatOk exEnv ss32 := ⟨fun h => (by cases h), fun h => (by cases h)⟩
-- PUSH ECX on the 16 bit stack: SP wraps, the upper half of ESP stays; on the 32 bit stack; a fault
example : exOut (run exRw 0 (pushInsn ss16 .d (.reg ⟨1, false⟩)) (exStk 0x12340002#32)) 4 0x11FFE#32 = some (0x1234FFFE#32, 0x01#8, 0x807#32) := by
  decide +kernel
example : exOut (run exEnv 0 (pushInsn ss32 .w (.sel 3)) (exStk 0x40#32)) 4 0x203E#32 = some (0x3E#32, 0x18#8, 0x807#32) := by decide +kernel
example : exOut (run exEnv 0 (pushInsn ss16 .d (.reg ⟨1, false⟩)) (exStk 0x12340002#32)) 4 0 = none := by decide +kernel
-- POP ESP, POP DI
example : exOut (run exEnv 0 (popInsn ss32 .d (.reg esp)) (exStk 0x40#32)) 4 0 = some (0x43424140#32, 0#8, 0x807#32) := by decide +kernel
example : exOut (run exEnv 0 (popInsn ss16 .w (.reg ⟨7, false⟩)) (exStk 0x1234FFFF#32)) 7 0 = some (0xABCD00FF#32, 0#8, 0x807#32) := by decide +kernel
-- POP to memory, LEAVE, PUSHA and POPA, LEA
example : exOut (run exEnv 0 (popInsn ss32 .d (.mem (exEa 0x2800#32))) (exStk 0x40#32)) 4 0x2801#32 = some (0x44#32, 0x41#8, 0x807#32) := by decide +kernel
example : exOut (run exEnv 0 (leave ss16 .w) (exStk 0x12340002#32)) 5 0 = some (0x2120#32, 0#8, 0x807#32) := by decide +kernel
example : exOut (run exEnv 0 (pusha ss16 .w) (exStk 0x12340040#32)) 4 0x2036#32 = some (0x12340030#32, 0x40#8, 0x807#32) := by decide +kernel
example : exOut (run exEnv 0 (pusha ss16 .d) (exStk 0x12340010#32)) 4 0 = none := by decide +kernel
example : exOut (run exEnv 0 (popa ss32 .d) (exStk 0x40#32)) 4 0 = some (0x60#32, 0#8, 0x807#32) ∧
    exOut (run exEnv 0 (popa ss32 .d) (exStk 0x40#32)) 0 0 = some (0x5F5E5D5C#32, 0#8, 0x807#32) := by decide +kernel
example : exOut (runWith exEnv { exM16 with addBase := false } 0 (lea .w ⟨1, false⟩ (exEa 0#32)) exSt) 1 0 =
  some (0xFFFF#32, 0x80#8, 0x807#32) := by decide +kernel
-- MOV in its forms
example : exOut (run exEnv 0 (movRmR .b ⟨0, true⟩ (.mem (exEa 0x2000#32))) exSt) 0 0x2000#32 = some (0x2FF#32, 2#8, 0x807#32) := by decide +kernel
example : exOut (run exEnv 0 (movRmR .b ⟨0, true⟩ (.mem (exEa 0x3000#32))) exSt) 0 0x2000#32 = none := by decide +kernel
example : exOut (run exEnv 0 (movImm .w 0xFFFF1234#64 (.reg ⟨0, false⟩)) (exStk 0#32)) 0 0 = some (0xABCD1234#32, 0#8, 0x807#32) := by decide +kernel

/-- The code violates C98 (1): MOV AX, DS writes all of EAX (jit.cpp 8087, whatever the operand size). -/
theorem C98_mov_sel_violation : ∃ (e : Env) (h h' : St) (s : Fin 6) (r : GReg), h.r .rcx = e.ctx ∧ run e 0 (movRmSel s (.reg r)) h = .next 0 h' ∧
    h'.g.gpr r.idx ≠ (wrG h.g .w r (e.sel s)).gpr r.idx :=
  ⟨exEnv, exStk 0#32, _, 3, ⟨0, false⟩, rfl, rfl, by decide +kernel⟩

/-- The code violates C98 (2): MOV DS, m with 32 bit operands reads four bytes, so it faults although the two bytes of the selector may be read. -/
theorem C98_load_sel_violation : ∃ (e : Env) (h : St) (a : Ea), h.r .rcx = e.ctx ∧ e.ok a.lin 2 false = true ∧ run e 0 (movSelRm .d (.mem a)) h = .fault h.g :=
  ⟨{ exEnv with ok := fun _ k _ => k ≤ 2 }, exSt, exEa 0x2000#32, rfl, rfl, rfl⟩

/-- The code violates C98 (3): `POP dword [ESP]` stores to the address with the ESP before it: the item above, where it has to go, is not written. -/
theorem C98_pop_mem_violation : ∃ (e : Env) (s : Ss) (h h' : St) (m : MemOp), h.r .rcx = e.ctx ∧ FlatOk e s ∧ Proper e m ∧
    runWith e m 0 (popInsn s .d (.mem (exEa 0#32))) h = .next 0 h' ∧ Address e h'.g m (slot e (spOff s h'.g)) ∧
    load h'.g.mem (slot e (spOff s h'.g)) 4 ≠ load h.g.mem (slot e (spOff s h.g)) 4 :=
  ⟨exEnv, ss32, exStk 0x40#32, _, ⟨true, .modrm ⟨some 4, none, none, true⟩, 2, false, true⟩, rfl, fun h => (by cases h),
    ⟨fun h => (by cases h), (by intro _ d h; cases h), (by intro i n h; cases h)⟩, rfl,
    (show (((0x2044#32 : BitVec 32).toNat : Nat) : Int) = EffAddr.linear true 0x2000 0x44 0 0 0 by decide +kernel), by decide +kernel⟩

/-- The code violates C98 (4): a LEAVE that faults has already written ESP. -/
theorem C98_leave_violation : ∃ (e : Env) (s : Ss) (h : St) (g : G), h.r .rcx = e.ctx ∧ FlatOk e s ∧ run e 0 (leave s .d) h = .fault g ∧ g.gpr 4 ≠ h.g.gpr 4 :=
  ⟨{ exEnv with ok := fun _ _ _ => false }, ss32, exStk 0x40#32, _, rfl, fun h => (by cases h), rfl, by decide +kernel⟩

end Verif.Emit
