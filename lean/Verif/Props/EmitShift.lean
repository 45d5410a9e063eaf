import Verif.Spec.EmitShift
import Verif.Props.EmitMul
import Verif.Props.Shift
/-!
C95: the emitted host code of shifts and rotates.
-/
namespace Verif.Emit
open Host Guest Spec
open Flags (Clean flags Width)

theorem shop_run {z : Sz} (hz : z ≠ .q) (e : Env) (h : St) (o : ShF) (c : Option Nat) (k : Nat)
    (hcnt : hostCount h c = k) (hk : k ≠ 0) :
    run e 0 [.shop o z .rax .rbx c] h =
      .next 0 ((wr h z .rax (o.eval (rd h z .rax) (rd h z .rbx) h.cf k ⟨e.hf h .cf, e.hf h .of, (e.hv h .rax).setWidth z.bits⟩).1).setF (e.hf h .zf)
        (o.eval (rd h z .rax) (rd h z .rbx) h.cf k ⟨e.hf h .cf, e.hf h .of, (e.hv h .rax).setWidth z.bits⟩).2.1
        (o.eval (rd h z .rax) (rd h z .rbx) h.cf k ⟨e.hf h .cf, e.hf h .of, (e.hv h .rax).setWidth z.bits⟩).2.2 (e.hf h .sf)) := by
  have hs : step e h (.shop o z .rax .rbx c) = shopStep e h o z .rax .rbx c := rfl
  rw [run_step, hs]
  unfold shopStep
  simp only [hcnt, if_neg hz, if_neg hk]
  rfl

/-- The guest's flag words after the instruction. -/
def shNewFl {n : Nat} (k : ShKind) (s : Flags.St) (r : BitVec n) (aux : BitVec 32) : Flags.St :=
  match k with
  | .rot _ => { s with aux := (s.aux &&& 0x3FFFFFFF#32) ||| aux }
  | _ => Flags.setFlags s r aux

theorem aux_eq (c o : Bool) :
    ((BitVec.setWidth 32 (if c = true then 1#8 else 0#8) + BitVec.setWidth 32 (if c = true then 1#8 else 0#8)) |||
      (BitVec.setWidth 32 (if o = true then 1#8 else 0#8) ^^^ BitVec.setWidth 32 (if c = true then 1#8 else 0#8))) <<< 0x1E =
    Flags.shiftAux c o := by
  cases c <;> cases o <;> decide

theorem cfOfAux_run {e : Env} {h : St} (t : Reg) (ht : t = .rdx ∨ t = .rax) :
    ∃ h', run e 0 (cfOfAux t) h = .next 0 h' ∧ h'.g = h.g ∧ h'.loc = h.loc ∧ (∀ q, q ≠ .rbx → q ≠ t → h'.r q = h.r q) ∧
      rd h' .d .rbx = Flags.shiftAux h.cf h.of := by
  unfold cfOfAux
  rcases ht with rfl | rfl <;>
  · hexec' []
    refine ⟨_, rfl, ?_⟩
    refine ⟨rfl, rfl, ?_, ?_⟩
    · intro q h1 h2
      hexec' [h1, h2]
    · hexec' []
      exact aux_eq _ _

theorem shFlags_run {z : Sz} (hz : z ≠ .q) {e : Env} {h : St} (hc : h.r .rcx = e.ctx) (k : ShKind) :
    Ends e (shFlags z k) h { h.g with fl := shNewFl k h.g.fl (rd h z .rax) (rd h .d .rbx) } := by
  unfold Ends
  cases k with
  | rot o =>
    unfold shFlags
    hexec' [hc]
    refine ⟨_, rfl, ?_⟩
    hexec' [hc]
    exact ⟨rfl, trivial⟩
  | sh o =>
    unfold shFlags setFlags
    cases z
    case q => exact absurd rfl hz
    all_goals
      simp only [reduceCtorEq, if_false, if_true]
      hexec' [hc]
      refine ⟨_, rfl, ?_⟩
      hexec' [hc]
      refine ⟨?_, trivial⟩
      simp only [shNewFl, Flags.setFlags]
      try rw [show BitVec.signExtend 32 (rd h .d .rax) = rd h .d .rax from BitVec.signExtend_eq _]
  | dsh l s =>
    unfold shFlags setFlags
    cases z
    case q => exact absurd rfl hz
    all_goals
      simp only [reduceCtorEq, if_false, if_true]
      hexec' [hc]
      refine ⟨_, rfl, ?_⟩
      hexec' [hc]
      refine ⟨?_, trivial⟩
      simp only [shNewFl, Flags.setFlags]
      try rw [show BitVec.signExtend 32 (rd h .d .rax) = rd h .d .rax from BitVec.signExtend_eq _]

/-- What the code before the host's instruction leaves. -/
structure Ready (e : Env) (z : Sz) (k : ShKind) (cl : Bool) (h h1 : St) (x : BitVec z.bits) : Prop where
  g : h1.g = h.g
  x : rd h1 z .rax = x
  y : ∀ l s, k = .dsh l s → rd h1 z .rbx = rdG h.g z s
  cf : k.usesCf = true → h1.cf = (Flags.ldCf h.g.fl != 0#32)
  rcx : cl = false → h1.r .rcx = e.ctx
  cnt : cl = true → rd h1 .b .rcx = rd h .b .r9

theorem cfIn_run {e : Env} {h : St} (hc : h.r .rcx = e.ctx) :
    ∃ h', run e 0 cfIn h = .next 0 h' ∧ h'.g = h.g ∧ h'.loc = h.loc ∧ (∀ q, q ≠ .rdx → h'.r q = h.r q) ∧
      h'.cf = (Flags.ldCf h.g.fl != 0#32) := by
  unfold cfIn
  cases hb : ((h.g.fl.aux &&& 0x80000000#32) &&& (h.g.fl.aux &&& 0x80000000#32) == 0#32)
  · have hb' : ((h.g.fl.aux &&& BitVec.setWidth Sz.d.bits 0x80000000#64) &&& (h.g.fl.aux &&& BitVec.setWidth Sz.d.bits 0x80000000#64) == 0) = false := hb
    hexec' [hc, hb']
    refine ⟨_, rfl, rfl, rfl, ?_, ?_⟩
    · intro q hq
      hexec' [hq]
    · rw [BitVec.and_self] at hb
      show true = !(_ == _)
      unfold Flags.ldCf
      rw [hb]; rfl
  · have hb' : ((h.g.fl.aux &&& BitVec.setWidth Sz.d.bits 0x80000000#64) &&& (h.g.fl.aux &&& BitVec.setWidth Sz.d.bits 0x80000000#64) == 0) = true := hb
    hexec' [hc, hb']
    refine ⟨_, rfl, rfl, rfl, ?_, ?_⟩
    · intro q hq
      hexec' [hq]
    · rw [BitVec.and_self] at hb
      show false = !(_ == _)
      unfold Flags.ldCf
      rw [hb]; rfl

theorem shPreReg_run {z : Sz} {e : Env} {h : St} (hc : h.r .rcx = e.ctx) (k : ShKind) (cl : Bool) (r : GReg) :
    ∃ h1, run e 0 (shPreReg k z cl r) h = .next 0 h1 ∧ Ready e z k cl h h1 (rdG h.g z r) := by
  have last : ∀ (h2 : St), h2.g = h.g → rd h2 z .rax = rdG h.g z r → (∀ l s, k = .dsh l s → rd h2 z .rbx = rdG h.g z s) →
      (k.usesCf = true → h2.cf = (Flags.ldCf h.g.fl != 0#32)) → h2.r .rcx = e.ctx → h2.r .r9 = h.r .r9 →
      ∃ h1, run e 0 (if cl then [.mov .b .rcx (.reg .r9)] else []) h2 = .next 0 h1 ∧ Ready e z k cl h h1 (rdG h.g z r) := by
    intro h2 a1 a2 a3 a4 a5 a6
    cases cl
    · exact ⟨h2, rfl, a1, a2, a3, a4, fun _ => a5, fun h => (by cases h)⟩
    · simp only [if_true]
      hexec' []
      refine ⟨_, rfl, ?_, ?_, ?_, ?_, fun h => (by cases h), ?_⟩
      · hexec' []; exact a1
      · hexec' []; exact a2
      · intro l s hk; hexec' []; exact a3 l s hk
      · intro hk; hexec' []; exact a4 hk
      · intro _; hexec' []; show rd _ _ _ = _; unfold rd; rw [a6]
  unfold shPreReg
  rw [List.append_assoc]
  have first : ∃ h0, run e 0 [I.ldG z .rax r] h = .next 0 h0 ∧ h0.g = h.g ∧ rd h0 z .rax = rdG h.g z r ∧ h0.r .rcx = e.ctx ∧ h0.r .r9 = h.r .r9 := by
    hexec' [hc]
    refine ⟨_, rfl, ?_⟩
    hexec' [hc]
    exact ⟨trivial, trivial, trivial, trivial⟩
  obtain ⟨h0, r0, g0, x0, c0, n0⟩ := first
  rw [run_append _ r0]
  have noCf : k.usesCf = false → (∀ l s, k ≠ .dsh l s) →
      ∃ h1, run e 0 ([] ++ (if cl then [.mov .b .rcx (.reg .r9)] else [])) h0 = .next 0 h1 ∧ Ready e z k cl h h1 (rdG h.g z r) := by
    intro h1 h2
    exact last h0 g0 x0 (fun l s hk => absurd hk (h2 l s)) (fun hk => by rw [h1] at hk; cases hk) c0 n0
  have withCf : k.usesCf = true → (∀ l s, k ≠ .dsh l s) →
      ∃ h1, run e 0 (cfIn ++ (if cl then [.mov .b .rcx (.reg .r9)] else [])) h0 = .next 0 h1 ∧ Ready e z k cl h h1 (rdG h.g z r) := by
    intro h1 h2
    obtain ⟨h3, r3, g3, _, q3, f3⟩ := cfIn_run c0
    rw [run_append _ r3]
    refine last h3 (g3.trans g0) ?_ (fun l s hk => absurd hk (h2 l s)) (fun _ => by rw [f3, g0]) ((q3 _ (by decide)).trans c0) ((q3 _ (by decide)).trans n0)
    unfold rd; rw [q3 _ (by decide)]; exact x0
  cases k with
  | sh o => exact noCf rfl (fun _ _ h => by cases h)
  | rot o => cases o <;> first | exact withCf rfl (fun _ _ h => by cases h) | exact noCf rfl (fun _ _ h => by cases h)
  | dsh l s =>
    have snd : ∃ h2, run e 0 [I.ldG z .rbx s] h0 = .next 0 h2 ∧ h2.g = h0.g ∧ rd h2 z .rax = rd h0 z .rax ∧ rd h2 z .rbx = rdG h0.g z s ∧
        h2.r .rcx = e.ctx ∧ h2.r .r9 = h0.r .r9 := by
      hexec' [c0]
      refine ⟨_, rfl, ?_⟩
      hexec' [c0]
      exact ⟨trivial, trivial, trivial, trivial, trivial⟩
    obtain ⟨h2, r2, g2, x2, y2, c2, n2⟩ := snd
    show ∃ h1, run e 0 ([I.ldG z .rbx s] ++ _) h0 = _ ∧ _
    rw [run_append _ r2]
    exact last h2 (g2.trans g0) (x2.trans x0) (fun l' s' hk => by injection hk with _ hs; rw [y2, g0, hs]) (fun hk => by cases hk) c2 (n2.trans n0)

theorem shPostReg_run {z : Sz} (hz : z ≠ .q) {e : Env} {h : St} (k : ShKind) (cl : Bool) (r : GReg)
    (hc : cl = false → h.r .rcx = e.ctx) :
    Ends e (shPostReg k z cl r) h
      { wrG h.g z r (rd h z .rax) with fl := shNewFl k h.g.fl (rd h z .rax) (Flags.shiftAux h.cf h.of) } := by
  unfold shPostReg
  have first : ∃ h0, run e 0 (if cl then [I.reload] else []) h = .next 0 h0 ∧ h0.g = h.g ∧ rd h0 z .rax = rd h z .rax ∧ h0.r .rcx = e.ctx ∧
      h0.cf = h.cf ∧ h0.of = h.of := by
    cases cl
    · exact ⟨h, rfl, rfl, rfl, hc rfl, rfl, rfl⟩
    · simp only [if_true]
      hexec' []
      refine ⟨_, rfl, ?_⟩
      hexec' []
      exact ⟨trivial, trivial, trivial, rfl, rfl⟩
  obtain ⟨h0, r0, g0, x0, c0, cf0, of0⟩ := first
  rw [List.append_assoc, List.append_assoc]
  refine ends_append r0 ?_
  obtain ⟨h1, r1, g1, _, q1, v1⟩ := cfOfAux_run (e := e) (h := h0) .rdx (Or.inl rfl)
  refine ends_append r1 ?_
  have c1 : h1.r .rcx = e.ctx := (q1 _ (by decide) (by decide)).trans c0
  have x1 : rd h1 z .rax = rd h z .rax := by
    rw [← x0]; unfold rd; rw [q1 _ (by decide) (by decide)]
  have r2 : run e 0 [I.stG z r .rax] h1 = .next 0 (h1.setG (wrG h1.g z r (rd h1 z .rax))) := by
    hexec' [c1]
  refine ends_append r2 ?_
  have := shFlags_run hz (e := e) (h := h1.setG (wrG h1.g z r (rd h1 z .rax))) c1 k
  rw [show rd (h1.setG (wrG h1.g z r (rd h1 z .rax))) z .rax = rd h1 z .rax from rfl,
    show rd (h1.setG (wrG h1.g z r (rd h1 z .rax))) .d .rbx = rd h1 .d .rbx from rfl, setG_g, x1, v1, g1, g0, cf0, of0] at this
  rw [g1, g0, x1]
  exact this

/-- Where the address is before the host's instruction. -/
def HasAddr (k : ShKind) (h : St) (a : BitVec 32) : Prop :=
  match k with
  | .dsh _ _ => rd h .d .rdx = a
  | _ => rd h .d .rbx = a

theorem shPreMem_run {z : Sz} {e : Env} {h : St} (hc : h.r .rcx = e.ctx) (k : ShKind) (cl : Bool) (a : Ea)
    (hok : e.ok a z.bytes false = true) :
    ∃ h1, run e 0 (shPreMem k z cl a) h = .next 0 h1 ∧ Ready e z k cl h h1 (BitVec.ofNat z.bits (load h.g.mem a z.bytes)) ∧
      HasAddr k h1 a := by
  unfold shPreMem
  rw [List.append_assoc, List.append_assoc, List.append_assoc]
  have first : ∃ h0, run e 0 [I.ea a, .mov .d .rbx (.reg .rdx)] h = .next 0 h0 ∧ h0.g = h.g ∧ rd h0 .d .rdx = a ∧ rd h0 .d .rbx = a ∧
      h0.r .rcx = e.ctx ∧ h0.r .r9 = h.r .r9 := by
    hexec' [hc]
    refine ⟨_, rfl, ?_⟩
    hexec' [hc]
    exact ⟨trivial, trivial, trivial, trivial, trivial⟩
  obtain ⟨h0, r0, g0, d0, b0, c0, n0⟩ := first
  rw [run_append _ r0]
  have second : ∃ h2, run e 0 (if cl then [I.stL .b 0 .r9] else []) h0 = .next 0 h2 ∧ h2.g = h.g ∧ rd h2 .d .rdx = a ∧ rd h2 .d .rbx = a ∧
      h2.r .rcx = e.ctx ∧ (cl = true → rdL h2 .b 0 = rd h .b .r9) := by
    cases cl
    · exact ⟨h0, rfl, g0, d0, b0, c0, fun h => (by cases h)⟩
    · simp only [if_true]
      hexec' []
      refine ⟨_, rfl, ?_⟩
      hexec' []
      refine ⟨g0, d0, b0, c0, fun _ => ?_⟩
      unfold rd; rw [n0]
  obtain ⟨h2, r2, g2, d2, b2, c2, n2⟩ := second
  rw [run_append _ r2]
  have third : ∃ h3, run e 0 [I.ldMem z] h2 = .next 0 h3 ∧ h3.g = h.g ∧ rd h3 .d .rbx = a ∧ rd h3 z .rax = BitVec.ofNat z.bits (load h.g.mem a z.bytes) ∧
      h3.r .rcx = e.ctx ∧ (cl = true → rdL h3 .b 0 = rd h .b .r9) := by
    hexec' [c2, d2, hok]
    refine ⟨_, rfl, ?_⟩
    hexec' [c2, g2]
    exact ⟨trivial, b2, trivial, trivial, n2⟩
  obtain ⟨h3, r3, g3, b3, x3, c3, n3⟩ := third
  rw [run_append _ r3]
  have last : ∀ (h4 : St), h4.g = h.g → rd h4 z .rax = BitVec.ofNat z.bits (load h.g.mem a z.bytes) → (∀ l s, k = .dsh l s → rd h4 z .rbx = rdG h.g z s) →
      (k.usesCf = true → h4.cf = (Flags.ldCf h.g.fl != 0#32)) → h4.r .rcx = e.ctx → (cl = true → rdL h4 .b 0 = rd h .b .r9) →
      HasAddr k h4 a →
      ∃ h1, run e 0 (if cl then [.ldL .b .rcx 0] else []) h4 = .next 0 h1 ∧ Ready e z k cl h h1 (BitVec.ofNat z.bits (load h.g.mem a z.bytes)) ∧
        HasAddr k h1 a := by
    intro h4 a1 a2 a3 a4 a5 a6 a7
    cases cl
    · exact ⟨h4, rfl, ⟨a1, a2, a3, a4, fun _ => a5, fun h => (by cases h)⟩, a7⟩
    · simp only [if_true]
      hexec' []
      refine ⟨_, rfl, ⟨?_, ?_, ?_, ?_, fun h => (by cases h), ?_⟩, ?_⟩
      · hexec' []; exact a1
      · hexec' []; exact a2
      · intro l s hk; hexec' []; exact a3 l s hk
      · intro hk; hexec' []; exact a4 hk
      · intro _; hexec' []; exact a6 rfl
      · cases k <;> (unfold HasAddr at a7 ⊢; simp only at a7 ⊢; hexec' []; exact a7)
  have noCf : k.usesCf = false → (∀ l s, k ≠ .dsh l s) →
      ∃ h1, run e 0 ([] ++ (if cl then [.ldL .b .rcx 0] else [])) h3 = .next 0 h1 ∧ Ready e z k cl h h1 (BitVec.ofNat z.bits (load h.g.mem a z.bytes)) ∧
        HasAddr k h1 a := by
    intro h1 h2
    exact last h3 g3 x3 (fun l s hk => absurd hk (h2 l s)) (fun hk => by rw [h1] at hk; cases hk) c3 n3
      (by cases k <;> first | exact b3 | exact absurd rfl (h2 _ _))
  have withCf : k.usesCf = true → (∀ l s, k ≠ .dsh l s) →
      ∃ h1, run e 0 (cfIn ++ (if cl then [.ldL .b .rcx 0] else [])) h3 = .next 0 h1 ∧ Ready e z k cl h h1 (BitVec.ofNat z.bits (load h.g.mem a z.bytes)) ∧
        HasAddr k h1 a := by
    intro h1 h2
    obtain ⟨h4, r4, g4, l4, q4, f4⟩ := cfIn_run c3
    rw [run_append _ r4]
    have b4 : rd h4 .d .rbx = a := by rw [← b3]; unfold rd; rw [q4 _ (by decide)]
    refine last h4 (g4.trans g3) ?_ (fun l s hk => absurd hk (h2 l s)) (fun _ => by rw [f4, g3]) ((q4 _ (by decide)).trans c3) ?_
      (by cases k <;> first | exact b4 | exact absurd rfl (h2 _ _))
    · unfold rd; rw [q4 _ (by decide)]; exact x3
    · intro hcl; unfold rdL; rw [l4]; exact n3 hcl
  cases k with
  | sh o => exact noCf rfl (fun _ _ h => by cases h)
  | rot o => cases o <;> first | exact withCf rfl (fun _ _ h => by cases h) | exact noCf rfl (fun _ _ h => by cases h)
  | dsh l s =>
    have snd : ∃ h4, run e 0 [I.mov .d .rdx (.reg .rbx), I.ldG z .rbx s] h3 = .next 0 h4 ∧ h4.g = h3.g ∧ rd h4 z .rax = rd h3 z .rax ∧
        rd h4 z .rbx = rdG h3.g z s ∧ rd h4 .d .rdx = rd h3 .d .rbx ∧ h4.r .rcx = e.ctx ∧ h4.loc = h3.loc := by
      hexec' [c3]
      refine ⟨_, rfl, ?_⟩
      hexec' [c3]
      exact ⟨trivial, trivial, trivial, trivial, trivial, trivial⟩
    obtain ⟨h4, r4, g4, x4, y4, d4, c4, l4⟩ := snd
    show ∃ h1, run e 0 ([I.mov .d .rdx (.reg .rbx), I.ldG z .rbx s] ++ _) h3 = _ ∧ _
    rw [run_append _ r4]
    exact last h4 (g4.trans g3) (x4.trans x3) (fun l' s' hk => by injection hk with _ hs; rw [y4, g3, hs]) (fun hk => by cases hk) c4
      (fun hcl => by unfold rdL; rw [l4]; exact n3 hcl) (d4.trans b3)

theorem shPreMem_fault {z : Sz} {e : Env} {h : St} (hc : h.r .rcx = e.ctx) (k : ShKind) (cl : Bool) (a : Ea)
    (hok : e.ok a z.bytes false = false) : run e 0 (shPreMem k z cl a) h = .fault h.g := by
  unfold shPreMem
  rw [List.append_assoc, List.append_assoc]
  have : run e 0 ([I.ea a, .mov .d .rbx (.reg .rdx)] ++ (if cl then [I.stL .b 0 .r9] else []) ++ [I.ldMem z]) h = .fault h.g := by
    cases cl <;> simp only [if_true, Bool.false_eq_true, if_false] <;> hexec' [hc, hok]
  rw [← List.append_assoc, ← List.append_assoc]
  exact run_append_fault _ (run_append_fault _ (by simpa only [List.append_assoc] using this))

/-- Not a rotate. -/
def NotRot (k : ShKind) : Prop := ∀ o, k ≠ .rot o

theorem shPostMem_run {z : Sz} (hz : z ≠ .q) {e : Env} {h : St} (k : ShKind) (cl : Bool) (a : BitVec 32)
    (hc : cl = false → h.r .rcx = e.ctx) (ha : HasAddr k h a) :
    (e.ok a z.bytes true = true → Ends e (shPostMem k z cl) h
      { h.g with mem := store h.g.mem a z.bytes (rd h z .rax).toNat, fl := shNewFl k h.g.fl (rd h z .rax) (Flags.shiftAux h.cf h.of) }) ∧
    (e.ok a z.bytes true = false → run e 0 (shPostMem k z cl) h = .fault h.g) := by
  unfold shPostMem
  rw [List.append_assoc, List.append_assoc, List.append_assoc, List.append_assoc]
  have first : ∃ h0, run e 0 (shSave z k) h = .next 0 h0 ∧ h0.g = h.g ∧ rd h0 z .r8 = rd h z .rax ∧
      rd h0 .d .rdx = a ∧ (cl = false → h0.r .rcx = e.ctx) ∧ h0.cf = h.cf ∧ h0.of = h.of ∧
      (NotRot k → rdL h0 z 0 = rd h z .rax) := by
    cases k <;>
    · unfold HasAddr at ha
      simp only at ha
      unfold shSave
      hexec' []
      refine ⟨_, rfl, ?_⟩
      hexec' []
      first
      | exact ⟨trivial, trivial, ha, hc, rfl, rfl, fun _ => trivial⟩
      | exact ⟨trivial, trivial, ha, hc, trivial, trivial, fun h => absurd rfl (h _)⟩
  obtain ⟨h0, r0, g0, x0, d0, c0, cf0, of0, l0⟩ := first
  have second : ∃ h1, run e 0 (if cl then [I.reload] else []) h0 = .next 0 h1 ∧ h1.g = h.g ∧ rd h1 z .r8 = rd h z .rax ∧
      rd h1 .d .rdx = a ∧ h1.r .rcx = e.ctx ∧ h1.cf = h.cf ∧ h1.of = h.of ∧
      (NotRot k → rdL h1 z 0 = rd h z .rax) := by
    cases cl
    · exact ⟨h0, rfl, g0, x0, d0, c0 rfl, cf0, of0, l0⟩
    · simp only [if_true]
      hexec' []
      refine ⟨_, rfl, ?_⟩
      hexec' []
      exact ⟨g0, x0, d0, trivial, cf0, of0, l0⟩
  obtain ⟨h1, r1, g1, x1, d1, c1, cf1, of1, l1⟩ := second
  obtain ⟨h2, r2, g2, e2, q2, v2⟩ := cfOfAux_run (e := e) (h := h1) .rax (Or.inr rfl)
  have c2 : h2.r .rcx = e.ctx := (q2 _ (by decide) (by decide)).trans c1
  have d2 : rd h2 .d .rdx = a := by rw [← d1]; unfold rd; rw [q2 _ (by decide) (by decide)]
  have x2 : rd h2 z .r8 = rd h z .rax := by rw [← x1]; unfold rd; rw [q2 _ (by decide) (by decide)]
  have l2 : NotRot k → rdL h2 z 0 = rd h z .rax := by intro hk; unfold rdL; rw [e2]; exact l1 hk
  rw [g1] at g2
  rw [cf1, of1] at v2
  refine ⟨fun hw => ?_, fun hw => ?_⟩
  · refine ends_append r0 (ends_append r1 (ends_append r2 ?_))
    have r3 : ∃ h3, run e 0 [I.stMem z] h2 = .next 0 h3 ∧ h3.g = { h.g with mem := store h.g.mem a z.bytes (rd h z .rax).toNat } ∧ h3.r .rcx = e.ctx ∧
        rd h3 .d .rbx = rd h2 .d .rbx ∧ (NotRot k → rdL h3 z 0 = rd h z .rax) := by
      hexec' [c2, d2, hw]
      refine ⟨_, rfl, ?_⟩
      hexec' [c2, g2, x2]
      exact ⟨trivial, trivial, trivial, l2⟩
    obtain ⟨h3, r3, g3, c3, b3, l3⟩ := r3
    refine ends_append r3 ?_
    have r4 : ∃ h4, run e 0 (shBack z k) h3 = .next 0 h4 ∧ h4.g = h3.g ∧ h4.r .rcx = e.ctx ∧
        rd h4 .d .rbx = rd h2 .d .rbx ∧ (NotRot k → rd h4 z .rax = rd h z .rax) := by
      cases k with
      | rot o => exact ⟨h3, rfl, rfl, c3, b3, fun h => absurd rfl (h o)⟩
      | sh o =>
        unfold shBack
        hexec' []
        refine ⟨_, rfl, ?_⟩
        hexec' []
        exact ⟨trivial, c3, b3, l3⟩
      | dsh l s =>
        unfold shBack
        hexec' []
        refine ⟨_, rfl, ?_⟩
        hexec' []
        exact ⟨trivial, c3, b3, l3⟩
    obtain ⟨h4, r4, g4, c4, b4, x4⟩ := r4
    refine ends_append r4 ?_
    have := shFlags_run hz (e := e) (h := h4) c4 k
    have hn : shNewFl k h4.g.fl (rd h4 z .rax) (rd h4 .d .rbx) = shNewFl k h.g.fl (rd h z .rax) (Flags.shiftAux h.cf h.of) := by
      rw [b4, v2, g4, g3]
      cases k with
      | rot o => rfl
      | sh o => rw [x4 (fun _ h => by cases h)]
      | dsh l s => rw [x4 (fun _ h => by cases h)]
    rw [hn, g4, g3] at this
    exact this
  · rw [run_append _ r0, run_append _ r1, run_append _ r2]
    refine run_append_fault _ ?_
    hexec' [c2, d2, hw]
    rw [g2]

/-- The flat definitions of Model/Shift.lean, together. -/
def flat {n : Nat} (k : ShKind) (s : Flags.St) (x y : BitVec n) (count : BitVec 8) (u : Flags.Undef n) : BitVec n × Flags.St :=
  match k with
  | .sh o => Flags.shiftOp o s x count u
  | .rot o => Flags.rotateOp o s x count u
  | .dsh l _ => Flags.dshiftOp l s x y count u

theorem flat_eq {n : Nat} (k : ShKind) (s : Flags.St) (x y y' : BitVec n) (count : BitVec 8) (u : Flags.Undef n) (c : Bool)
    (hk : Flags.shCount count ≠ 0) (hc : k.usesCf = true → c = (Flags.ldCf s != 0#32)) (hy : ∀ l r, k = .dsh l r → y' = y) :
    flat k s x y count u = ((k.host.eval x y' c (Flags.shCount count) u).1,
      shNewFl k s (k.host.eval x y' c (Flags.shCount count) u).1
        (Flags.shiftAux (k.host.eval x y' c (Flags.shCount count) u).2.1 (k.host.eval x y' c (Flags.shCount count) u).2.2)) := by
  cases k with
  | sh o => exact if_neg hk
  | rot o =>
    have he : Flags.hostRotate o x c (Flags.shCount count) u = Flags.hostRotate o x (Flags.ldCf s != 0#32) (Flags.shCount count) u := by
      cases o
      · rw [hc rfl]
      · rw [hc rfl]
      · rfl
      · rfl
    show Flags.rotateOp o s x count u = ((Flags.hostRotate o x c (Flags.shCount count) u).1, shNewFl _ s (Flags.hostRotate o x c (Flags.shCount count) u).1
      (Flags.shiftAux (Flags.hostRotate o x c (Flags.shCount count) u).2.1 (Flags.hostRotate o x c (Flags.shCount count) u).2.2))
    rw [he]
    exact if_neg hk
  | dsh l r =>
    rw [hy l r rfl]
    exact if_neg hk

/-- The state after the instruction. -/
def shAfter (k : ShKind) (z : Sz) (g : G) (d : Opd) (count : BitVec 8) (u : Flags.Undef z.bits) : G :=
  { d.set g z (flat k g.fl (d.get g z) (shSrc g z k) count u).1 with fl := (flat k g.fl (d.get g z) (shSrc g z k) count u).2 }

theorem shBody_run {z : Sz} (hz : z ≠ .q) {e : Env} {h : St} (hc : h.r .rcx = e.ctx) (k : ShKind) (c : Option Nat) (rm : Rm) (count : BitVec 8)
    (hk : Flags.shCount count ≠ 0)
    (hcnt : ∀ h1, (c.isNone = true → rd h1 .b .rcx = rd h .b .r9) → hostCount h1 c = Flags.shCount count) :
    (((ofRm rm).ok e z false && (ofRm rm).ok e z true) = true →
      ∃ u, Ends e (shBody k z c rm) h (shAfter k z h.g (ofRm rm) count u)) ∧
    (((ofRm rm).ok e z false && (ofRm rm).ok e z true) = false → run e 0 (shBody k z c rm) h = .fault h.g) := by
  have mid : ∀ (h1 : St) (x : BitVec z.bits), Ready e z k c.isNone h h1 x →
      ∃ u h2, run e 0 [.shop k.host z .rax .rbx c] h1 = .next 0 h2 ∧ h2.g = h.g ∧
        rd h2 z .rax = (flat k h.g.fl x (shSrc h.g z k) count u).1 ∧
        shNewFl k h.g.fl (rd h2 z .rax) (Flags.shiftAux h2.cf h2.of) = (flat k h.g.fl x (shSrc h.g z k) count u).2 ∧
        (c.isNone = false → h2.r .rcx = e.ctx) ∧ (∀ a, HasAddr k h1 a → HasAddr k h2 a) := by
    intro h1 x hr
    have hs := shop_run hz e h1 k.host c _ (hcnt h1 hr.cnt) hk
    have hf := flat_eq k h.g.fl x (shSrc h.g z k) (rd h1 z .rbx) count ⟨e.hf h1 .cf, e.hf h1 .of, (e.hv h1 .rax).setWidth z.bits⟩ h1.cf hk hr.cf
      (fun l r hkk => by rw [hr.y l r hkk, hkk]; rfl)
    rw [hr.x] at hs
    refine ⟨⟨e.hf h1 .cf, e.hf h1 .of, (e.hv h1 .rax).setWidth z.bits⟩, _, hs, hr.g, ?_, ?_, ?_, ?_⟩
    · hexec' []; rw [hf]
    · hexec' []; rw [hf]
    · intro hn; hexec' []; exact hr.rcx hn
    · intro a ha
      cases k <;> (unfold HasAddr at ha ⊢; simp only at ha ⊢; hexec' []; exact ha)
  cases rm with
  | reg r =>
    refine ⟨fun _ => ?_, fun hf => absurd hf (by simp [ofRm, Opd.ok])⟩
    obtain ⟨h1, r1, p1⟩ := shPreReg_run (z := z) hc k c.isNone r
    obtain ⟨u, h2, r2, g2, x2, f2, c2, _⟩ := mid h1 _ p1
    refine ⟨u, ends_append r1 (ends_append r2 ?_)⟩
    have := shPostReg_run hz (e := e) (h := h2) k c.isNone r c2
    rw [g2, f2, x2] at this
    exact this
  | mem a =>
    have post := fun h1 (p1 : Ready e z k c.isNone h h1 (BitVec.ofNat z.bits (load h.g.mem a z.bytes))) => mid h1 _ p1
    cases hr : e.ok a z.bytes false with
    | false =>
      refine ⟨fun hk => ?_, fun _ => run_append_fault _ (shPreMem_fault hc k _ a hr)⟩
      have : (e.ok a z.bytes false && e.ok a z.bytes true) = true := hk
      rw [hr] at this; cases this
    | true =>
      obtain ⟨h1, r1, p1, a1⟩ := shPreMem_run (z := z) hc k c.isNone a hr
      obtain ⟨u, h2, r2, g2, x2, f2, c2, a2⟩ := post h1 p1
      obtain ⟨w1, w2⟩ := shPostMem_run hz (e := e) (h := h2) k c.isNone a c2 (a2 a a1)
      have hk' : ((ofRm (.mem a)).ok e z false && (ofRm (.mem a)).ok e z true) = e.ok a z.bytes true := by
        show (e.ok a z.bytes false && e.ok a z.bytes true) = _
        rw [hr]; rfl
      rw [hk']
      refine ⟨fun hw => ⟨u, ends_append r1 (ends_append r2 ?_)⟩, fun hw => ?_⟩
      · have := w1 hw
        rw [g2, f2, x2] at this
        exact this
      · have := w2 hw
        rw [g2] at this
        show run e 0 (_ ++ (_ ++ _)) h = _
        rw [run_append _ r1, run_append _ r2]
        exact this

theorem flat_spec {n : Nat} (hn : Width n) (k : ShKind) (s : Flags.St) (hcl : Clean s) (x y : BitVec n) (count : BitVec 8) (u : Flags.Undef n)
    (hk : count.toNat % 32 ≠ 0) :
    Shifted x y (count.toNat % 32) (flags s) (flat k s x y count u).1 (flags (flat k s x y count u).2) k ∧
    (flat k s x y count u).2.eflags = s.eflags := by
  cases k with
  | sh o =>
    cases o
    · obtain ⟨a, b, c, d, f⟩ := Flags.C59_shl hn s hcl x count u hk
      exact ⟨⟨a, b, c, d⟩, f⟩
    · obtain ⟨a, b, c, d, f⟩ := Flags.C59_shr hn s hcl x count u hk
      exact ⟨⟨a, b, c, d⟩, f⟩
    · obtain ⟨a, b, c, d, f⟩ := Flags.C59_sar hn s hcl x count u hk
      exact ⟨⟨a, b, c, d⟩, f⟩
  | rot o =>
    cases o
    · obtain ⟨a, b, c⟩ := Flags.C59_rcl hn s hcl x count u hk
      exact ⟨⟨a, b⟩, c⟩
    · obtain ⟨a, b, c⟩ := Flags.C59_rcr hn s hcl x count u hk
      exact ⟨⟨a, b⟩, c⟩
    · obtain ⟨a, b, c⟩ := Flags.C59_rol s hcl x count u hk
      exact ⟨⟨a, b⟩, c⟩
    · obtain ⟨a, b, c⟩ := Flags.C59_ror s hcl x count u hk
      exact ⟨⟨a, b⟩, c⟩
  | dsh l r =>
    refine ⟨fun hle => ?_, ?_⟩
    · obtain ⟨a, b, c, d, _⟩ := Flags.C59_double hn s hcl x y count u hk hle l
      exact ⟨a, b, c, d⟩
    · have : Flags.shCount count ≠ 0 := by rw [Flags.shCount_eq]; exact hk
      rw [flat_eq (.dsh l r) s x y y count u false this (fun h => by cases h) (fun _ _ _ => rfl)]
      rfl

/-- The two conclusions about a count other than zero. -/
theorem shDone {z : Sz} (hz : z ≠ .q) {e : Env} {h : St} {code : List I} (hcl : Clean h.g.fl) (k : ShKind) (d : Opd) (count : BitVec 8)
    (hk : count.toNat % 32 ≠ 0) (hd : ∃ u, Ends e code h (shAfter k z h.g d count u)) :
    ∃ h' r, run e 0 code h = .next 0 h' ∧ h'.r .rcx = e.ctx ∧ SameButFlags (d.set h.g z r) h'.g ∧
      Shifted (d.get h.g z) (shSrc h.g z k) (count.toNat % 32) (flags h.g.fl) r (flags h'.g.fl) k := by
  obtain ⟨u, h', r, g, c⟩ := hd
  obtain ⟨s1, s2⟩ := flat_spec (width hz) k h.g.fl hcl (d.get h.g z) (shSrc h.g z k) count u hk
  refine ⟨h', (flat k h.g.fl (d.get h.g z) (shSrc h.g z k) count u).1, r, c, ?_, ?_⟩
  · rw [g]
    refine ⟨rfl, rfl, ?_⟩
    show (flat k h.g.fl _ _ count u).2.eflags = _
    rw [s2]
    cases d <;> rfl
  · rw [g]; exact s1

/-- C95: the emitted code of SHL, SHR, SAR, RCL, RCR, ROL, ROR, SHLD and SHRD, for every operand size, register or memory
destination and a count in CL or an immediate.  With a count of zero modulo 32 nothing happens, no access is made.  Otherwise,
if the destination may be read and written, it and the flags change as specified and nothing else does; if not, a fault is
raised and nothing has changed. -/
theorem C95_shift {z : Sz} (hz : z ≠ .q) (e : Env) (h : St) (hc : h.r .rcx = e.ctx) (hcl : Clean h.g.fl) (k : ShKind) (rm : Rm) (n : ShCnt) :
    (count h.g n = 0 → ∃ h', run e 0 (shiftCode k z rm n) h = .next 0 h' ∧ h'.r .rcx = e.ctx ∧ h'.g = h.g) ∧
    (count h.g n ≠ 0 →
      (allowed e z true (ofRm rm) (ofRm rm) = true →
        ∃ h' r, run e 0 (shiftCode k z rm n) h = .next 0 h' ∧ h'.r .rcx = e.ctx ∧ SameButFlags ((ofRm rm).set h.g z r) h'.g ∧
          Shifted ((ofRm rm).get h.g z) (shSrc h.g z k) (count h.g n) (flags h.g.fl) r (flags h'.g.fl) k) ∧
      (allowed e z true (ofRm rm) (ofRm rm) = false → run e 0 (shiftCode k z rm n) h = .fault h.g)) := by
  have hall : allowed e z true (ofRm rm) (ofRm rm) = ((ofRm rm).ok e z false && (ofRm rm).ok e z true) := by
    unfold allowed
    cases (ofRm rm).ok e z false <;> simp
  rw [hall]
  cases n with
  | imm v =>
    have hv : count h.g (.imm v) = v.toNat % 32 := rfl
    rw [hv]
    have hs : Flags.shCount v = v.toNat % 32 := Flags.shCount_eq v
    refine ⟨fun h0 => ⟨h, ?_, hc, rfl⟩, fun h0 => ?_⟩
    · rw [show shiftCode k z rm (.imm v) = [] from if_pos (hs.trans h0)]; rfl
    · have hne : Flags.shCount v ≠ 0 := by rw [hs]; exact h0
      have he : shiftCode k z rm (.imm v) = shBody k z (some (Flags.shCount v)) rm := if_neg hne
      rw [he]
      obtain ⟨b1, b2⟩ := shBody_run hz hc k (some (Flags.shCount v)) rm v hne
        (fun h1 _ => by show Flags.shCount v % 32 = _; rw [hs]; omega)
      exact ⟨fun hk => shDone hz hcl k _ v h0 (b1 hk), b2⟩
  | cl =>
    have pre : ∃ h1, run e 0 [I.ldG .b .r9 ⟨1, false⟩, .alu .and .b .r9 (.imm 0x1F#64), .cmp .b .r9 (.imm 0#64)] h = .next 0 h1 ∧
        h1.g = h.g ∧ h1.r .rcx = e.ctx ∧ rd h1 .b .r9 = rdG h.g .b ⟨1, false⟩ &&& 0x1F#8 ∧ h1.zf = (rdG h.g .b ⟨1, false⟩ &&& 0x1F#8 == 0#8) := by
      hexec' [hc]
      refine ⟨_, rfl, ?_⟩
      hexec' [hc]
      exact ⟨trivial, trivial, rfl, rfl⟩
    obtain ⟨h1, r1, g1, c1, n1, z1⟩ := pre
    generalize hcl' : (rdG h.g .b ⟨1, false⟩ : BitVec 8) = v at n1 z1
    have hs : Flags.shCount v = v.toNat % 32 := Flags.shCount_eq v
    have hv : count h.g .cl = v.toNat % 32 := by rw [← hcl']; rfl
    have hz1 : h1.zf = decide (Flags.shCount v = 0) := by
      rw [z1]
      unfold Flags.shCount
      by_cases hb : v &&& 0x1F#8 = 0#8
      · rw [hb]; rfl
      · rw [decide_eq_false (p := (v &&& 31#8).toNat = 0) (fun h => hb (BitVec.eq_of_toNat_eq h)), beq_eq_false_iff_ne]
        exact hb
    rw [hv]
    have he : shiftCode k z rm .cl = [I.ldG .b .r9 ⟨1, false⟩, .alu .and .b .r9 (.imm 0x1F#64), .cmp .b .r9 (.imm 0#64)] ++
        ([I.jeq (shBody k z none rm).length] ++ shBody k z none rm) := rfl
    rw [he]
    have hskip : ∀ (l : List I) (h : St), run e l.length l h = .next 0 h := by
      intro l
      induction l with
      | nil => intro h; rfl
      | cons i l ih => intro h; exact ih h
    refine ⟨fun h0 => ⟨h1, ?_, c1, g1⟩, fun h0 => ?_⟩
    · rw [run_append _ r1]
      have : h1.zf = true := by rw [hz1]; exact decide_eq_true (hs.trans h0)
      show run e 0 (I.jeq _ :: _) h1 = _
      rw [run_step]
      simp only [step, this, if_true]
      exact hskip _ _
    · have hne : Flags.shCount v ≠ 0 := by rw [hs]; exact h0
      have hzf : h1.zf = false := by rw [hz1]; exact decide_eq_false hne
      have r2 : run e 0 [I.jeq (shBody k z none rm).length] h1 = .next 0 h1 := by
        rw [run_step]
        simp only [step, hzf, Bool.false_eq_true, if_false]
        rfl
      obtain ⟨b1, b2⟩ := shBody_run hz c1 k none rm v hne
        (fun h2 hh => by
          have := hh rfl
          show (rd h2 .b .rcx).toNat % 32 = _
          rw [this, n1]
          show Flags.shCount v % 32 = _
          rw [hs]; omega)
      rw [g1] at b1 b2
      refine ⟨fun hk => ?_, fun hk => ?_⟩
      · obtain ⟨u, he⟩ := b1 hk
        exact shDone hz hcl k _ v h0 ⟨u, ends_append r1 (ends_append r2 he)⟩
      · rw [run_append _ r1, run_append _ r2]
        exact b2 hk

/-! Non-trivial cases, in the example state of Props/Emit.lean (EAX = 0x2FF, CL = 0, EBX = 1, CF set, bytes 0x80,
0x3000 and above read-only). -/
/-- EAX, a byte of memory and CF after the instruction. -/
def shEx (s : St) (k : ShKind) (z : Sz) (rm : Rm) (n : ShCnt) (a : BitVec 32) : Option (BitVec 32 × BitVec 8 × Bool) :=
  match run exEnv 0 (shiftCode k z rm n) s with
  | .next _ h => some (h.g.gpr 0, h.g.mem a, (flags h.g.fl).cf)
  | _ => none
/-- With CL = 0x23, that is, a count of 3. -/
def exCl : St := { exSt with g := { exSt.g with gpr := fun i => if i = 1 then 0x23#32 else exSt.g.gpr i } }

example : count exCl.g .cl = 3 ∧ count exSt.g .cl = 0 ∧ count exSt.g (.imm 0x41#8) = 1 := by decide
example : exCl.r .rcx = exEnv.ctx ∧ Clean exCl.g.fl := ⟨rfl, by unfold Clean; decide⟩
-- SHL AX, CL; RCR byte [0x2000], CL; the latter at 0x3000 faults, but not with CL = 0
example : shEx exCl (.sh .shl) .w (.reg ⟨0, false⟩) .cl 0 = some (0x17F8#32, 0x80#8, false) := by decide +kernel
example : shEx exCl (.rot .rcr) .b (.mem (exEa 0x2000#32)) .cl 0x2000#32 = some (0x2FF#32, 0x30#8, false) := by decide +kernel
example : shEx exCl (.rot .rcr) .b (.mem (exEa 0x3000#32)) .cl 0x3000#32 = none := by decide +kernel
example : shEx exSt (.rot .rcr) .b (.mem (exEa 0x3000#32)) .cl 0x3000#32 = some (0x2FF#32, 0x80#8, true) := by decide +kernel
-- SHLD AX, BX, 17: a count of 17 is above the size; SHRD EAX, EBX, 1
example : shEx exSt (.dsh false ⟨3, false⟩) .d (.reg ⟨0, false⟩) (.imm 0x21#8) 0 = some (0x8000017F#32, 0x80#8, true) := by
  decide +kernel

end Verif.Emit
