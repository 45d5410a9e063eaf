import Verif.Spec.EmitIo
import Verif.Lemmas.EmitStr
import Verif.Lemmas.EmitMore
/-
The code of the port instructions, piece by piece.
-/
namespace Verif.Emit
open Host Spec

theorem xrun_host (e : Env) (d : Dev) (m : List X) (t : List Ev) : ∀ (l : List I) (k : Nat) (h : Host.St),
    xrun e d k (l.map .h ++ m) h t = match run e k l h with
      | .next k' h' => xrun e d k' m h' t
      | .fault g => .stop .pf g t
      | .stuck => .stuck := by
  intro l
  induction l with
  | nil => intro k h; rw [run]; rfl
  | cons i l ih =>
    intro k h
    cases k with
    | succ k => rw [run]; exact ih k h
    | zero =>
      rw [run]
      rw [List.map_cons, List.cons_append, xrun, xstep]
      cases hs : step e h i with
      | next k h' => exact ih k h'
      | fault g => rfl
      | stuck => rfl

theorem xrun_next {e : Env} {d : Dev} {t : List Ev} {l : List I} {k k' : Nat} {h h' : Host.St} (hr : run e k l h = .next k' h') (m : List X) :
    xrun e d k (l.map .h ++ m) h t = xrun e d k' m h' t := by rw [xrun_host, hr]
theorem xrun_fault {e : Env} {d : Dev} {t : List Ev} {l : List I} {k : Nat} {h : Host.St} {g : G} (hr : run e k l h = .fault g) (m : List X) :
    xrun e d k (l.map .h ++ m) h t = .stop .pf g t := by rw [xrun_host, hr]

theorem xrun_append {e : Env} {d : Dev} : ∀ {a : List X} {k k' : Nat} {h h' : Host.St} {t t' : List Ev} (b : List X),
    xrun e d k a h t = .next k' h' t' → xrun e d k (a ++ b) h t = xrun e d k' b h' t' := by
  intro a
  induction a with
  | nil => intro k k' h h' t t' b hr; rw [xrun] at hr; injection hr with h1 h2 h3; rw [← h1, ← h2, ← h3]; rfl
  | cons i a ih =>
    intro k k' h h' t t' b hr
    cases k with
    | succ k => exact ih b hr
    | zero =>
      rw [List.cons_append, xrun]
      rw [xrun] at hr
      cases hs : xstep e d h t i with
      | next k1 h1 t1 => rw [hs] at hr; exact ih b hr
      | stop w g t1 => rw [hs] at hr; cases hr
      | stuck => rw [hs] at hr; cases hr

theorem xrun_append_stop {e : Env} {d : Dev} : ∀ {a : List X} {k : Nat} {h : Host.St} {t t' : List Ev} {w : Why} {g : G} (b : List X),
    xrun e d k a h t = .stop w g t' → xrun e d k (a ++ b) h t = .stop w g t' := by
  intro a
  induction a with
  | nil => intro k h t t' w g b hr; rw [xrun] at hr; cases hr
  | cons i a ih =>
    intro k h t t' w g b hr
    cases k with
    | succ k => exact ih b hr
    | zero =>
      rw [List.cons_append, xrun]
      rw [xrun] at hr
      cases hs : xstep e d h t i with
      | next k1 h1 t1 => rw [hs] at hr; exact ih b hr
      | stop w1 g1 t1 => rw [hs] at hr; exact hr
      | stuck => rw [hs] at hr; cases hr

/-- Skipping all of a list, or all but its last instruction. -/
theorem xrun_over (e : Env) (d : Dev) (l : List X) (k : Nat) (h : Host.St) (t : List Ev) : xrun e d (l.length + k) l h t = .next k h t := by
  induction l with
  | nil => rw [List.length_nil, Nat.zero_add]; rfl
  | cons i l ih => rw [List.length_cons, Nat.add_right_comm]; exact ih
theorem xrun_skip (e : Env) (d : Dev) (l m : List X) (h : Host.St) (t : List Ev) : xrun e d l.length (l ++ m) h t = xrun e d 0 m h t :=
  xrun_append m (xrun_over e d l 0 h t)


/-- What the check leaves. -/
structure IoKept (e : Env) (h h' : Host.St) : Prop where
  rcx : h'.r .rcx = e.ctx
  g : h'.g = h.g
  rbx : rd h' .d .rbx = rd h .d .rbx
  loc : h'.loc 1 = h.loc 1

/-- The port saved in local variable 0. -/
def Saved (p : Option (BitVec 8)) (port : BitVec 16) (h : Host.St) : Prop := match p with
  | none => rdL h .d 0 = port.setWidth 32
  | some v => port = v.setWidth 16

theorem word_val (m : Guest.Mem) (a : BitVec 32) : (BitVec.setWidth 32 (BitVec.ofNat Sz.w.bits (Guest.load m a 2)) : BitVec 32) = BitVec.ofNat 32 (Guest.load m a 2) := by
  have := Guest.load_lt m a 2
  apply BitVec.eq_of_toNat_eq
  rw [BitVec.toNat_setWidth, BitVec.toNat_ofNat, BitVec.toNat_ofNat]
  show _ % 2 ^ 16 % _ = _
  omega

theorem rd_keep {e : Env} (hk : KeepsR e) (h : Host.St) (z : Sz) (r : Reg) (hr : r = .r10 ∨ r = .r11) : rd (clob e h) z r = rd h z r := by
  unfold rd clob
  rcases hr with rfl | rfl
  · show (e.hv h .r10).setWidth _ = _; rw [(hk h).1]
  · show (e.hv h .r11).setWidth _ = _; rw [(hk h).2]

theorem wrL_loc_ne (h : Host.St) (z : Sz) (i j : Nat) (v : BitVec z.bits) (hj : j ≠ i) : (wrL h z i v).loc j = h.loc j := if_neg hj

theorem mapCode_run (e : Env) (p : Option (BitVec 8)) (port : BitVec 16) (base limit : BitVec 32) (h : Host.St) (hc : h.r .rcx = e.ctx)
    (hb : rd h .d .r10 = base) (hl : rd h .d .r11 = limit) (hp : match p with | none => rd h .d .rdx = port.setWidth 32 | some v => port = v.setWidth 16) :
    (e.ok (base + 102#32) 2 false = true → ∃ h', run e 0 (ioMapCode p) h = .next 0 h' ∧ IoKept e h h' ∧ Saved p port h' ∧
      rd h' .d .rax = BitVec.ofNat 32 (Guest.load h.g.mem (base + 102#32) 2) ∧
      (KeepsR e → rd h' .d .r10 = base + 102#32 ∧ rd h' .d .r11 = limit)) ∧
    (e.ok (base + 102#32) 2 false = false → run e 0 (ioMapCode p) h = .fault h.g) := by
  have hk : (BitVec.setWidth 32 (102#64) : BitVec 32) = 102#32 := rfl
  have hw : Sz.w.bytes = 2 := rfl
  unfold ioMapCode
  cases p <;> dsimp only at hp ⊢
  · slist
    hexec' [hc, hb, hk, hw]
    cases ho : e.ok (base + 102#32) 2 false
    · hexec' []
      exact ⟨fun h => h.elim, fun _ => trivial⟩
    · hexec' []
      refine ⟨fun _ => ⟨_, rfl, ⟨?_, ?_, ?_, ?_⟩, ?_, ?_, fun hq => ?_⟩, fun h => by cases h⟩
      · hexec' [hc, hb]
      · hexec' [hc, hb]
      · hexec' [hc, hb]
      · hexec' [hc, hb]; exact wrL_loc_ne _ _ _ _ _ (by decide)
      · unfold Saved; hexec' [hp]
      · hexec' [hc, hb]; exact word_val _ _
      · hexec' [rd_keep hq, true_or, or_true, hl]; exact ⟨trivial, trivial⟩
  · slist
    hexec' [hc, hb, hk, hw]
    cases ho : e.ok (base + 102#32) 2 false
    · hexec' []
      exact ⟨fun h => h.elim, fun _ => trivial⟩
    · hexec' []
      refine ⟨fun _ => ⟨_, rfl, ⟨?_, ?_, ?_, ?_⟩, ?_, ?_, fun hq => ?_⟩, fun h => by cases h⟩
      · hexec' [hc, hb]
      · hexec' [hc, hb]
      · hexec' [hc, hb]
      · hexec' [hc, hb]
      · exact hp
      · hexec' [hc, hb]; exact word_val _ _
      · hexec' [rd_keep hq, true_or, or_true, hl]; exact ⟨trivial, trivial⟩

theorem shr3_dx (port : BitVec 16) : (port.setWidth 32 : BitVec 32) >>> 3 = (port >>> 3).setWidth 32 := by bits32
theorem off_imm (v : BitVec 8) : (BitVec.setWidth 32 (BitVec.ofNat 64 (v.toNat / 8 + 1)) : BitVec 32) = ((v.setWidth 16 : BitVec 16) >>> 3).setWidth 32 + 1#32 := by
  apply BitVec.eq_of_toNat_eq
  have := v.isLt
  simp only [BitVec.toNat_setWidth, BitVec.toNat_ofNat, BitVec.toNat_add, BitVec.toNat_ushiftRight, Nat.shiftRight_eq_div_pow]
  omega

theorem offCode_run (e : Env) (p : Option (BitVec 8)) (port : BitVec 16) (h : Host.St) (hc : h.r .rcx = e.ctx) (hp : Saved p port h) (o : BitVec 32)
    (ho : rd h .d .rax = o) :
    ∃ h', run e 0 (ioOffCode p) h = .next 0 h' ∧ IoKept e h h' ∧ Saved p port h' ∧ rd h' .d .rax = o + (port >>> 3).setWidth 32 + 1#32 ∧
      rd h' .d .r10 = rd h .d .r10 ∧ (!h'.cf && !h'.zf) = decide ((rd h .d .r11).toNat < (o + (port >>> 3).setWidth 32 + 1#32).toNat) := by
  have hk : (BitVec.setWidth 32 (102#64) : BitVec 32) = 102#32 := rfl
  have fin : ∀ a b : BitVec 32, (!decide (a.toNat < b.toNat) && !(a == b)) = decide (b.toNat < a.toNat) := by
    intro a b
    rw [Bool.eq_iff_iff, Bool.and_eq_true, Bool.not_eq_true', Bool.not_eq_true', decide_eq_false_iff_not, decide_eq_true_eq, beq_eq_false_iff_ne]
    constructor
    · intro ⟨h1, h2⟩
      have : a.toNat ≠ b.toNat := fun h => h2 (BitVec.eq_of_toNat_eq h)
      omega
    · intro h1
      exact ⟨by omega, fun h => by rw [h] at h1; omega⟩
  unfold ioOffCode
  cases p <;> unfold Saved at hp <;> dsimp only at hp ⊢
  · slist
    hexec' [hc, ho, hp]
    refine ⟨_, rfl, ⟨?_, ?_, ?_, ?_⟩, ?_, ?_, ?_, ?_⟩
    all_goals try hexec' [hc, ho, hp, shr3_dx, fin, BitVec.shiftLeft_zero]
    · unfold Saved; hexec' [hp]
  · slist
    hexec' [hc, ho, off_imm]
    refine ⟨_, rfl, ⟨?_, ?_, ?_, ?_⟩, ?_, ?_, ?_, ?_⟩
    all_goals try hexec' [hc, ho, hp, fin]
    · rfl
    · exact (BitVec.add_assoc _ _ _).symm
    · rw [BitVec.add_assoc]

theorem bitsCode_run (e : Env) (p : Option (BitVec 8)) (port : BitVec 16) (h : Host.St) (hc : h.r .rcx = e.ctx) (hp : Saved p port h) (a : BitVec 32)
    (ha : rd h .d .rax + rd h .d .r10 = a) :
    (e.ok a 2 false = true → ∃ h', run e 0 ioBitsCode h = .next 0 h' ∧ IoKept e h h' ∧ Saved p port h' ∧
      rd h' .d .rax = BitVec.ofNat 32 (Guest.load h.g.mem a 2)) ∧
    (e.ok a 2 false = false → run e 0 ioBitsCode h = .fault h.g) := by
  have hw : Sz.w.bytes = 2 := rfl
  have hs : ∀ h', h'.loc = h.loc → Saved p port h' := by
    intro h' hh
    unfold Saved rdL at *
    rw [hh]
    exact hp
  unfold ioBitsCode
  hexec' [hc, ha, hw]
  cases ho : e.ok a 2 false
  · hexec' []
    exact ⟨fun h => h.elim, fun _ => trivial⟩
  · hexec' []
    refine ⟨fun _ => ⟨_, rfl, ⟨?_, ?_, ?_, ?_⟩, hs _ ?_, ?_⟩, fun h => by cases h⟩
    all_goals try hexec' [hc]
    exact word_val _ _

theorem hostShr_val {n : Nat} (k : Nat) (x : BitVec n) (c : Bool) : (Flags.hostShr k x c).1 = x >>> k := by
  induction k generalizing x c with
  | zero => simp [Flags.hostShr]
  | succ k ih => rw [Flags.hostShr, ih, ← BitVec.shiftRight_add, Nat.add_comm]

theorem shrStep (e : Env) (h : Host.St) (c : Option Nat) (k : Nat) (hk : hostCount h c = k) :
    ∃ h', step e h (.shop (.sh .shr) .d .rax .rax c) = .next 0 h' ∧ rd h' .d .rax = rd h .d .rax >>> k ∧ (∀ r, r ≠ .rax → h'.r r = h.r r) ∧
      h'.g = h.g ∧ h'.loc = h.loc := by
  simp only [step]
  unfold shopStep
  rw [hk]
  dsimp only
  rw [if_neg (by decide)]
  by_cases h0 : k = 0
  · rw [if_pos h0, h0]
    exact ⟨h, rfl, rfl, fun _ _ => rfl, rfl, rfl⟩
  · rw [if_neg h0]
    refine ⟨_, rfl, ?_, fun r hr => ?_, rfl, rfl⟩
    · hexec' []
      exact hostShr_val _ _ _
    · exact wr_r_ne _ _ hr _

/-- The bits of the port as the code computes them. -/
theorem mask_eq (z : Sz) (hz : z ≠ .q) (w : Nat) (hw : w < 65536) (k : Nat) :
    (BitVec.ofNat 32 w >>> k &&& BitVec.setWidth 32 (BitVec.ofNat 64 (2 ^ z.bytes - 1)) == 0#32) = decide ((w >>> k) &&& (2 ^ z.bytes - 1) = 0) := by
  rw [Bool.eq_iff_iff, beq_iff_eq, decide_eq_true_eq, ← BitVec.toNat_inj, BitVec.toNat_and, BitVec.toNat_ushiftRight, BitVec.toNat_ofNat,
    BitVec.toNat_setWidth, BitVec.toNat_ofNat, Nat.mod_eq_of_lt (show w < 2 ^ 32 by omega)]
  have : (2 ^ z.bytes - 1) % 2 ^ 64 % 2 ^ 32 = 2 ^ z.bytes - 1 := by cases z <;> first | rfl | exact absurd rfl hz
  rw [this]
  rfl

theorem low7 (port : BitVec 16) : (BitVec.setWidth 8 (BitVec.setWidth 64 ((port.setWidth 32 : BitVec 32) &&& 7#32)) : BitVec 8).toNat % 32 = port.toNat % 8 := by
  have : (BitVec.setWidth 8 (BitVec.setWidth 64 ((port.setWidth 32 : BitVec 32) &&& 7#32)) : BitVec 8) = (port &&& 7#16).setWidth 8 := by bits8
  rw [this, BitVec.toNat_setWidth, BitVec.toNat_and]
  rw [show (7#16).toNat = 2 ^ 3 - 1 from rfl, Nat.and_two_pow_sub_one_eq_mod]
  omega

theorem shiftCode_run (e : Env) (p : Option (BitVec 8)) (z : Sz) (hz : z ≠ .q) (port : BitVec 16) (h : Host.St) (hc : h.r .rcx = e.ctx)
    (hp : Saved p port h) (w : Nat) (hw : w < 65536) (ha : rd h .d .rax = BitVec.ofNat 32 w) :
    ∃ h', run e 0 (ioShiftCode p z) h = .next 0 h' ∧ IoKept e h h' ∧ Saved p port h' ∧
      h'.zf = decide ((w >>> (port.toNat % 8)) &&& (2 ^ z.bytes - 1) = 0) := by
  have hm := mask_eq z hz w hw (port.toNat % 8)
  unfold ioShiftCode
  cases p <;> unfold Saved at hp <;> dsimp only at hp ⊢
  · obtain ⟨h1, r1, c1, g1, l1, a1, b1⟩ : ∃ h1, run e 0 [I.ldL .d .rdx 0, .alu .and .d .rdx (.imm 7#64), .mov .d .rcx (.reg .rdx)] h = .next 0 h1 ∧
        hostCount h1 none = port.toNat % 8 ∧ h1.g = h.g ∧ h1.loc = h.loc ∧ rd h1 .d .rax = rd h .d .rax ∧ rd h1 .d .rbx = rd h .d .rbx := by
      hexec' [hp]
      refine ⟨_, rfl, ?_, ?_⟩
      · unfold hostCount
        have : ∀ (h : Host.St) (v : BitVec 32), (rd (wr h .d .rcx v) .b .rcx : BitVec 8) = BitVec.setWidth 8 (BitVec.setWidth 64 v) := fun _ _ => by
          unfold rd wr St.set; dsimp only; rw [if_pos rfl]; rfl
        dsimp only
        rw [this]
        exact low7 port
      · hexec' []; exact ⟨trivial, trivial, trivial, trivial⟩
    obtain ⟨h2, r2, a2, k2, g2, l2⟩ := shrStep e h1 none _ c1
    have hk := k2 .rbx (by decide)
    slist
    have := run_append (I.shop (.sh .shr) .d .rax .rax none :: [I.reload, .alu .and .d .rax (.imm (BitVec.ofNat 64 (2 ^ z.bytes - 1)))]) r1
    refine ⟨?_, this.trans ((by rw [run_step, r2] : _ = run e 0 [I.reload, .alu .and .d .rax (.imm (BitVec.ofNat 64 (2 ^ z.bytes - 1)))] h2).trans (by hexec' []; rfl)), ⟨?_, ?_, ?_, ?_⟩, ?_, ?_⟩
    all_goals try hexec' [a2, a1, ha, g2, g1, l2, l1]
    · have : rd h2 .d .rbx = rd h1 .d .rbx := by unfold rd; rw [hk]
      rw [this, b1]
    · unfold Saved rdL; hexec' [l2, l1]; exact hp
    · exact hm
  · obtain ⟨h2, r2, a2, k2, g2, l2⟩ := shrStep e h (some _) (port.toNat % 8) (by
      rename_i v
      show v.toNat % 8 % 32 = _
      rw [hp, BitVec.toNat_setWidth]
      have := v.isLt
      omega)
    have hk := k2 .rbx (by decide)
    have hcx := k2 .rcx (by decide)
    slist
    refine ⟨?_, (by rw [run_step, r2] : _ = run e 0 [.alu .and .d .rax (.imm (BitVec.ofNat 64 (2 ^ z.bytes - 1)))] h2).trans (by hexec' []; rfl), ⟨?_, ?_, ?_, ?_⟩, ?_, ?_⟩
    all_goals try hexec' [a2, ha, g2, l2, hcx, hc]
    · unfold rd; rw [hk]
    · exact hp
    · exact hm

theorem IoKept.trans {e : Env} {a b c : Host.St} (h : IoKept e a b) (h' : IoKept e b c) : IoKept e a c :=
  ⟨h'.rcx, h'.g.trans h.g, h'.rbx.trans h.rbx, h'.loc.trans h.loc⟩

/-- What the check does, by its decision. -/
def AfterCheck (e : Env) (d : Dev) (p : Option (BitVec 8)) (port : BitVec 16) (l : List X) (h : Host.St) (t : List Ev) : IoBitmap.Out → Prop
  | .allow => ∃ h', xrun e d 0 l h t = .next 0 h' t ∧ IoKept e h h' ∧ Saved p port h'
  | .gp => xrun e d 0 l h t = .stop .gp h.g t
  | .pf => xrun e d 0 l h t = .stop .pf h.g t

theorem last_run (e : Env) (d : Dev) (h : Host.St) (t : List Ev) :
    xrun e d 0 [.h (.jne 1), .h (.jmp 1), .gp] h t = if h.zf then .next 0 h t else .stop .gp h.g t := by
  simp only [xrun, xstep, step]
  cases h.zf <;> rfl

theorem tail_run (e : Env) (d : Dev) (p : Option (BitVec 8)) (port : BitVec 16) (z : Sz) (hz : z ≠ .q) (h : Host.St) (t : List Ev) (hc : h.r .rcx = e.ctx)
    (hp : Saved p port h) (a : BitVec 32) (up : Bool) (ha : rd h .d .rax = a) (hu : (!h.cf && !h.zf) = up) :
    AfterCheck e d p port (ioTail p z) h t (if up then .gp else if e.ok (a + rd h .d .r10) 2 false then
      (if (Guest.load h.g.mem (a + rd h .d .r10) 2 >>> (port.toNat % 8)) &&& (2 ^ z.bytes - 1) = 0 then .allow else .gp) else .pf) := by
  have hcons : xrun e d 0 (ioTail p z) h t =
      xrun e d (if up then (ioBitsCode ++ ioShiftCode p z).length + 2 else 0) ((ioBitsCode ++ ioShiftCode p z).map .h ++ [.h (.jne 1), .h (.jmp 1), .gp]) h t := by
    rw [← hu]; rfl
  cases up
  · rw [if_neg (by decide)] at hcons
    rw [if_neg (by decide)]
    obtain ⟨b1, b2⟩ := bitsCode_run e p port h hc hp (a + rd h .d .r10) (by rw [ha])
    cases ho : e.ok (a + rd h .d .r10) 2 false
    · rw [if_neg (by decide)]
      show _ = _
      rw [hcons]
      exact xrun_fault (run_append_fault _ (b2 ho)) _
    · rw [if_pos rfl]
      obtain ⟨h1, r1, k1, s1, a1⟩ := b1 ho
      obtain ⟨h2, r2, k2, s2, z2⟩ := shiftCode_run e p z hz port h1 k1.rcx s1 _ (Guest.load_lt _ _ 2) a1
      have h3 := hcons.trans (xrun_next ((run_append _ r1).trans r2) _)
      by_cases hb : (Guest.load h.g.mem (a + rd h .d .r10) 2 >>> (port.toNat % 8)) &&& (2 ^ z.bytes - 1) = 0
      · rw [if_pos hb]
        rw [decide_eq_true hb] at z2
        refine ⟨h2, h3.trans ?_, k1.trans k2, s2⟩
        rw [last_run, z2, if_pos rfl]
      · rw [if_neg hb]
        rw [decide_eq_false hb] at z2
        show xrun e d 0 (ioTail p z) h t = .stop .gp h.g t
        rw [h3]
        have g2 : h2.g = h.g := k2.g.trans k1.g
        rw [← g2]
        rw [last_run, z2, if_neg (by decide)]
  · rw [if_pos rfl] at hcons
    rw [if_pos rfl]
    show _ = _
    rw [hcons]
    have hl : ((ioBitsCode ++ ioShiftCode p z).map X.h).length = (ioBitsCode ++ ioShiftCode p z).length := List.length_map _
    rw [← hl, xrun_append _ (xrun_over e d _ 2 h t)]
    rfl

theorem ioRest_run (e : Env) (d : Dev) (p : Option (BitVec 8)) (port : BitVec 16) (z : Sz) (hz : z ≠ .q) (h : Host.St) (t : List Ev) (hc : h.r .rcx = e.ctx)
    (hp : match p with | none => rd h .d .rdx = port.setWidth 32 | some v => port = v.setWidth 16) (base limit : BitVec 32) (hb : rd h .d .r10 = base)
    (hl : rd h .d .r11 = limit) (h103 : ¬ limit.toNat < 103) :
    ∃ r10 r11, (KeepsR e → r10 = base + 102#32 ∧ r11 = limit) ∧
      AfterCheck e d p port (ioRest p z) h t (IoBitmap.check e.ok h.g.mem base limit port z.bytes r10 r11) := by
  obtain ⟨m1, m2⟩ := mapCode_run e p port base limit h hc hb hl hp
  cases ho : e.ok (base + 102#32) 2 false
  · refine ⟨base + 102#32, limit, fun _ => ⟨rfl, rfl⟩, ?_⟩
    unfold IoBitmap.check
    rw [if_neg h103, ho, if_neg (by decide)]
    exact xrun_fault (run_append_fault _ (m2 ho)) _
  · obtain ⟨h1, r1, k1, s1, a1, q1⟩ := m1 ho
    obtain ⟨h2, r2, k2, s2, a2, q2, f2⟩ := offCode_run e p port h1 k1.rcx s1 _ a1
    refine ⟨rd h1 .d .r10, rd h1 .d .r11, q1, ?_⟩
    have ht := tail_run e d p port z hz h2 t k2.rcx s2 _ _ a2 f2
    have g2 : h2.g = h.g := k2.g.trans k1.g
    have h3 := xrun_next (d := d) (t := t) ((run_append _ r1).trans r2) (ioTail p z)
    rw [q2, g2] at ht
    unfold IoBitmap.check
    rw [if_neg h103, ho, if_pos rfl]
    dsimp only
    generalize hX : BitVec.ofNat 32 (Guest.load h.g.mem (base + 102#32) 2) + (port >>> 3).setWidth 32 + 1#32 = a at *
    by_cases hgt : (rd h1 .d .r11).toNat < a.toNat
    · rw [if_pos hgt]
      rw [decide_eq_true hgt, if_pos rfl] at ht
      exact h3.trans (Eq.trans ht (by rw [g2]))
    · rw [if_neg hgt]
      rw [decide_eq_false hgt, if_neg (by decide)] at ht
      revert ht
      split
      · split
        · rintro ⟨h4, r4, k4, s4⟩
          exact ⟨h4, h3.trans r4, (k1.trans k2).trans k4, s4⟩
        · intro ht; exact h3.trans (Eq.trans ht (by rw [g2]))
      · intro ht; exact h3.trans (Eq.trans ht (by rw [g2]))

theorem ioCheck_run (e : Env) (d : Dev) (p : Option (BitVec 8)) (port : BitVec 16) (z : Sz) (hz : z ≠ .q) (h : Host.St) (t : List Ev) (hc : h.r .rcx = e.ctx)
    (hp : match p with | none => rd h .d .rdx = port.setWidth 32 | some v => port = v.setWidth 16) :
    ∃ r10 r11, (KeepsR e → r10 = d.base + 102#32 ∧ r11 = d.limit) ∧
      AfterCheck e d p port (ioCheck p z) h t (IoBitmap.check e.ok h.g.mem d.base d.limit port z.bytes r10 r11) := by
  obtain ⟨h1, r1, c1, g1, x1, b1, l1, e1, y1, f1⟩ : ∃ h1, xrun e d 0 [.trBase .r10, .trLim .r11, .h (.cmp .d .r11 (.imm 103#64))] h t = .next 0 h1 t ∧
      h1.r .rcx = e.ctx ∧ h1.g = h.g ∧ rd h1 .d .rdx = rd h .d .rdx ∧ rd h1 .d .rbx = rd h .d .rbx ∧ h1.loc = h.loc ∧ rd h1 .d .r10 = d.base ∧
      rd h1 .d .r11 = d.limit ∧ h1.cf = decide (d.limit.toNat < 103) := by
    have h103 : (BitVec.setWidth Sz.d.bits 103#64).toNat = 103 := rfl
    rw [xrun, xstep, if_pos hc]
    dsimp only
    rw [xrun, xstep, if_pos (by hexec' [hc])]
    simp only [xrun, xstep, step]
    refine ⟨_, rfl, ?_⟩
    hexec' [hc, h103]
    exact ⟨trivial, trivial, trivial, trivial, trivial, trivial, trivial, trivial⟩
  have hj : xrun e d 0 (ioCheck p z) h t = xrun e d (if d.limit.toNat < 103 then (ioRest p z).length - 1 else 0) (ioRest p z) h1 t := by
    have := xrun_append (.jb ((ioRest p z).length - 1) :: ioRest p z) r1
    refine Eq.trans this ?_
    show xrun e d (if h1.cf then _ else 0) _ h1 t = _
    rw [f1]
    by_cases hl : d.limit.toNat < 103
    · rw [decide_eq_true hl, if_pos rfl, if_pos hl]
    · rw [decide_eq_false hl, if_neg (by decide), if_neg hl]
  by_cases hl : d.limit.toNat < 103
  · refine ⟨d.base + 102#32, d.limit, fun _ => ⟨rfl, rfl⟩, ?_⟩
    unfold IoBitmap.check
    rw [if_pos hl]
    show _ = _
    rw [hj, if_pos hl]
    have hlast : ∃ l, ioRest p z = l ++ [.gp] := by
      unfold ioRest ioTail
      exact ⟨_, (by simp only [List.append_assoc, List.cons_append, List.nil_append] : _ = ((ioMapCode p ++ ioOffCode p).map X.h ++
        (.h (.ja ((ioBitsCode ++ ioShiftCode p z).length + 2)) :: ((ioBitsCode ++ ioShiftCode p z).map .h ++ [.h (.jne 1), .h (.jmp 1)]))) ++ [X.gp])⟩
    obtain ⟨l, hl⟩ := hlast
    rw [hl, List.length_append, List.length_singleton, Nat.add_sub_cancel, xrun_skip, ← g1]
    rfl
  · rw [if_neg hl] at hj
    obtain ⟨r10, r11, hk, ha⟩ := ioRest_run e d p port z hz h1 t c1 (by cases p <;> dsimp only at hp ⊢; rw [x1]; exact hp; exact hp) d.base d.limit e1 y1 hl
    refine ⟨r10, r11, hk, ?_⟩
    rw [g1] at ha
    revert ha
    generalize IoBitmap.check e.ok h.g.mem d.base d.limit port z.bytes r10 r11 = c
    cases c <;> intro ha
    · exact hj.trans (Eq.trans ha (by rw [g1]))
    · exact hj.trans (Eq.trans ha (by rw [g1]))
    · obtain ⟨h2, r2, k2, s2⟩ := ha
      exact ⟨h2, hj.trans r2, ⟨k2.rcx, k2.g.trans g1, k2.rbx.trans b1, by rw [k2.loc, l1]⟩, s2⟩

/-- The port is in DX after the code that checks it, or the instruction has ended. -/
def AfterPort (e : Env) (d : Dev) (port : BitVec 16) (l : List X) (h : Host.St) (t : List Ev) : IoBitmap.Out → Prop
  | .allow => ∃ h', xrun e d 0 l h t = .next 0 h' t ∧ IoKept e h h' ∧ rd h' .w .rdx = port
  | .gp => xrun e d 0 l h t = .stop .gp h.g t
  | .pf => xrun e d 0 l h t = .stop .pf h.g t

theorem dx_low (v : BitVec 32) : BitVec.ofNat 16 v.toNat = v.setWidth 16 := by
  apply BitVec.eq_of_toNat_eq
  rw [BitVec.toNat_ofNat, BitVec.toNat_setWidth]
theorem low_of_zext (v : BitVec 16) : BitVec.setWidth 16 (BitVec.setWidth 32 v) = v := by bits16
theorem rd_w_low (h : Host.St) (r : Reg) (port : BitVec 16) (hr : rd h .d r = port.setWidth 32) : rd h .w r = port := by
  have : (rd h .w r : BitVec 16) = (rd h .d r).setWidth 16 := by
    unfold rd
    generalize h.r r = x
    show BitVec.setWidth 16 x = BitVec.setWidth 16 (BitVec.setWidth 32 x)
    bits16
  rw [this, hr]
  exact low_of_zext port

theorem ioDx_run (e : Env) (d : Dev) (chk : Bool) (z : Sz) (hz : z ≠ .q) (h : Host.St) (t : List Ev) (hc : h.r .rcx = e.ctx) :
    ∃ c, Decides e d chk h.g.mem (dx h.g) z.bytes c ∧ AfterPort e d (dx h.g) (ioDx chk z) h t c := by
  obtain ⟨h1, r1, k1, x1⟩ : ∃ h1, run e 0 [I.ldGx false .d .w .rdx gDx] h = .next 0 h1 ∧ IoKept e h h1 ∧ rd h1 .d .rdx = (dx h.g).setWidth 32 := by
    have hv : (BitVec.setWidth 32 (rdG h.g .w gDx) : BitVec 32) = (dx h.g).setWidth 32 := by
      unfold dx
      rw [dx_low]
      rfl
    hexec' [hc]
    refine ⟨_, rfl, ⟨?_, ?_, ?_, ?_⟩, ?_⟩
    all_goals hexec' [hc]
    exact hv
  have hcons : ∀ l, xrun e d 0 (.h (.ldGx false .d .w .rdx gDx) :: l) h t = xrun e d 0 l h1 t := fun l => xrun_next (d := d) (t := t) r1 l
  unfold Decides ioDx
  cases chk
  · exact ⟨.allow, rfl, h1, hcons _, k1, rd_w_low _ _ _ x1⟩
  · obtain ⟨r10, r11, hk, ha⟩ := ioCheck_run e d none (dx h.g) z hz h1 t k1.rcx x1
    refine ⟨_, ⟨r10, r11, hk, rfl⟩, ?_⟩
    rw [if_pos rfl]
    rw [k1.g] at ha
    revert ha
    generalize IoBitmap.check e.ok h.g.mem d.base d.limit (dx h.g) z.bytes r10 r11 = c
    cases c <;> intro ha
    · exact (hcons _).trans ((xrun_append_stop _ ha).trans (by rw [k1.g]))
    · exact (hcons _).trans ((xrun_append_stop _ ha).trans (by rw [k1.g]))
    · obtain ⟨h2, r2, k2, s2⟩ := ha
      have s2' : rdL h2 .d 0 = (dx h.g).setWidth 32 := s2
      obtain ⟨h3, r3, k3, x3⟩ : ∃ h3, run e 0 [I.ldL .d .rdx 0] h2 = .next 0 h3 ∧ IoKept e h2 h3 ∧ rd h3 .d .rdx = (dx h.g).setWidth 32 := by
        hexec' []
        refine ⟨_, rfl, ⟨?_, ?_, ?_, ?_⟩, ?_⟩
        all_goals hexec' [k2.rcx, s2']
      refine ⟨h3, (hcons _).trans ((xrun_append _ r2).trans ((xrun_next (d := d) (t := t) r3 []).trans rfl)), (k1.trans k2).trans k3, rd_w_low _ _ _ x3⟩

/-- The first part of IN and OUT. -/
theorem ioPort_run (e : Env) (d : Dev) (x : IoInsn) (hz : x.z ≠ .q) (h : Host.St) (t : List Ev) (hc : h.r .rcx = e.ctx) :
    ∃ c, Decides e d x.chk h.g.mem (portOf x h.g) x.z.bytes c ∧ AfterPort e d (portOf x h.g) (match x.port with
      | some p => (if x.chk then ioCheck (some p) x.z else []) ++ [.h (.mov .d .rdx (.imm (p.setWidth 64)))]
      | none => ioDx x.chk x.z) h t c := by
  obtain ⟨inp, z, port, chk⟩ := x
  dsimp only at hz ⊢
  unfold portOf
  cases port with
  | none => exact ioDx_run e d chk z hz h t hc
  | some p =>
    dsimp only
    have hport : BitVec.ofNat 16 p.toNat = p.setWidth 16 := by
      apply BitVec.eq_of_toNat_eq
      rw [BitVec.toNat_ofNat, BitVec.toNat_setWidth]
    rw [hport]
    have last : ∀ h2 : Host.St, h2.r .rcx = e.ctx → ∃ h3, xrun e d 0 [.h (.mov .d .rdx (.imm (p.setWidth 64)))] h2 t = .next 0 h3 t ∧ IoKept e h2 h3 ∧
        rd h3 .w .rdx = p.setWidth 16 := by
      intro h2 c2
      obtain ⟨h3, r3, k3, x3⟩ : ∃ h3, run e 0 [I.mov .d .rdx (.imm (p.setWidth 64))] h2 = .next 0 h3 ∧ IoKept e h2 h3 ∧
          rd h3 .d .rdx = (p.setWidth 16 : BitVec 16).setWidth 32 := by
        have hv : (BitVec.setWidth 32 (BitVec.setWidth 64 p) : BitVec 32) = (p.setWidth 16 : BitVec 16).setWidth 32 := by bits32
        hexec' []
        refine ⟨_, rfl, ⟨?_, ?_, ?_, ?_⟩, ?_⟩
        all_goals hexec' [c2]
        exact hv
      exact ⟨h3, (xrun_next (d := d) (t := t) r3 []).trans rfl, k3, rd_w_low _ _ _ x3⟩
    unfold Decides
    cases chk
    · obtain ⟨h3, r3, k3, x3⟩ := last h hc
      exact ⟨.allow, rfl, h3, r3, k3, x3⟩
    · obtain ⟨r10, r11, hk, ha⟩ := ioCheck_run e d (some p) (p.setWidth 16) z hz h t hc rfl
      refine ⟨_, ⟨r10, r11, hk, rfl⟩, ?_⟩
      rw [if_pos rfl]
      revert ha
      generalize IoBitmap.check e.ok h.g.mem d.base d.limit (p.setWidth 16) z.bytes r10 r11 = c
      cases c <;> intro ha
      · exact xrun_append_stop _ ha
      · exact xrun_append_stop _ ha
      · obtain ⟨h2, r2, k2, s2⟩ := ha
        obtain ⟨h3, r3, k3, x3⟩ := last h2 k2.rcx
        exact ⟨h3, (xrun_append _ r2).trans r3, k2.trans k3, x3⟩

/-- What an access to a port does. -/
theorem ldIo_run (e : Env) (d : Dev) (z : Sz) (h : Host.St) (t : List Ev) (hc : h.r .rcx = e.ctx) (port : BitVec 16) (hp : rd h .w .rdx = port) :
    (d.watch z port = true → ∀ l, xrun e d 0 (.ldIo z :: l) h t = .stop .db h.g t) ∧
    (d.watch z port = false → ∃ h', (∀ l, xrun e d 0 (.ldIo z :: l) h t = xrun e d 0 l h' (t ++ [.rd z port (BitVec.ofNat z.bits (d.inp t z port)).toNat])) ∧
      h'.r .rcx = e.ctx ∧ h'.g = h.g ∧ rd h' z .rax = BitVec.ofNat z.bits (d.inp t z port)) := by
  subst hp
  refine ⟨fun hw l => ?_, fun hw => ⟨wr (clob e h) z .rax (BitVec.ofNat z.bits (d.inp t z (rd h .w .rdx))), fun l => ?_, ?_, ?_, ?_⟩⟩
  · rw [xrun, xstep, if_pos hc]
    dsimp only
    rw [if_pos hw]
  · rw [xrun, xstep, if_pos hc]
    dsimp only
    rw [if_neg (by rw [hw]; decide)]
  · hexec' []
  · hexec' []
  · hexec' []

theorem stIo_run (e : Env) (d : Dev) (z : Sz) (h : Host.St) (t : List Ev) (hc : h.r .rcx = e.ctx) (port : BitVec 16) (hp : rd h .w .rdx = port) :
    (d.watch z port = true → ∀ l, xrun e d 0 (.stIo z :: l) h t = .stop .db h.g t) ∧
    (d.watch z port = false → ∃ h', (∀ l, xrun e d 0 (.stIo z :: l) h t = xrun e d 0 l h' (t ++ [.wr z port (rd h z .r8).toNat])) ∧
      h'.r .rcx = e.ctx ∧ h'.g = h.g ∧ rd h' .d .rbx = rd h .d .rbx) := by
  subst hp
  refine ⟨fun hw l => ?_, fun hw => ⟨clob e h, fun l => ?_, ?_, ?_, ?_⟩⟩
  · rw [xrun, xstep, if_pos hc]
    dsimp only
    rw [if_pos hw]
  · rw [xrun, xstep, if_pos hc]
    dsimp only
    rw [if_neg (by rw [hw]; decide)]
  · hexec' []
  · hexec' []
  · hexec' []

/-- The element of INS, after the port was read. -/
theorem insStore_run (e : Env) (x : IoStr) (h : Host.St) (hc : h.r .rcx = e.ctx) (hd : x.dstFlat = true → e.seg 0 = 0#32) (v : BitVec x.z.bits)
    (hv : rd h x.z .rax = v) :
    (e.ok (StringOps.rdIdx x.a32 (h.g.gpr 7) + e.seg 0) x.z.bytes true = true → ∃ h', run e 0 (insStore x) h = .next 0 h' ∧ h'.r .rcx = e.ctx ∧
      h'.g = { h.g with mem := Guest.store h.g.mem (StringOps.rdIdx x.a32 (h.g.gpr 7) + e.seg 0) x.z.bytes v.toNat } ∧
      rd h' .d .rbx = StringOps.rdIdx x.a32 (h.g.gpr 7)) ∧
    (e.ok (StringOps.rdIdx x.a32 (h.g.gpr 7) + e.seg 0) x.z.bytes true = false → run e 0 (insStore x) h = .fault h.g) := by
  unfold insStore edi
  slist
  sexec [hc, rd_based e _ _ _ hd, hv]
  cases ho : e.ok (StringOps.rdIdx x.a32 (h.g.gpr 7) + e.seg 0) x.z.bytes true
  · sexec [hc, ho]
    exact ⟨fun h => h.elim, fun _ => trivial⟩
  · sexec [hc, ho]
    refine ⟨fun _ => ⟨_, rfl, ?_⟩, fun h => by cases h⟩
    sexec [hc, hv]
    exact ⟨trivial, trivial, trivial⟩

/-- The element of OUTS, before the port is written. -/
theorem outsLoad_run (e : Env) (x : IoStr) (h : Host.St) (hc : h.r .rcx = e.ctx) (hd : x.srcFlat = true → e.seg x.seg = 0#32) :
    (e.ok (StringOps.rdIdx x.a32 (h.g.gpr 6) + e.seg x.seg) x.z.bytes false = true → ∃ h', run e 0 (outsLoad x) h = .next 0 h' ∧ h'.r .rcx = e.ctx ∧
      h'.g = h.g ∧ rdL h' x.z 1 = BitVec.ofNat x.z.bits (Guest.load h.g.mem (StringOps.rdIdx x.a32 (h.g.gpr 6) + e.seg x.seg) x.z.bytes) ∧
      rd h' .d .rbx = StringOps.rdIdx x.a32 (h.g.gpr 6)) ∧
    (e.ok (StringOps.rdIdx x.a32 (h.g.gpr 6) + e.seg x.seg) x.z.bytes false = false → run e 0 (outsLoad x) h = .fault h.g) := by
  unfold outsLoad esi
  slist
  sexec [hc, rd_based e _ _ _ hd]
  cases ho : e.ok (StringOps.rdIdx x.a32 (h.g.gpr 6) + e.seg x.seg) x.z.bytes false
  · sexec [hc, ho]
    exact ⟨fun h => h.elim, fun _ => trivial⟩
  · sexec [hc, ho]
    refine ⟨fun _ => ⟨_, rfl, ?_⟩, fun h => by cases h⟩
    sexec [hc]
    exact ⟨trivial, trivial, trivial, trivial⟩

/-- The index moved and the count decreased. -/
def moved (x : StrInsn) (g : G) : G :=
  if x.rep.isSome then dec x.a32 (slide x (g.fl.eflags.getLsbD 10) g) else slide x (g.fl.eflags.getLsbD 10) g

theorem ioMove_run (e : Env) (x : StrInsn) (hi : dfReg x.i = .rax) (h : Host.St) (hc : h.r .rcx = e.ctx) (hh : Held x.i x.a32 h.g h) :
    ∃ h', run e 0 (ioMove x) h = .next (if strGoes x (moved x h.g) then 1 else 0) h' ∧ h'.r .rcx = e.ctx ∧ h'.g = moved x h.g := by
  unfold ioMove
  have ht : ∃ h2, run e 0 [.ldEfl .rax, .alu .and .d .rax (.imm 0x400#64), .test .d .rax .rax, .jne (fwd x).length] h =
      .next (if h.g.fl.eflags.getLsbD 10 then (fwd x).length else 0) h2 ∧ h2.r .rcx = e.ctx ∧ h2.g = h.g ∧ Held x.i x.a32 h2.g h2 := by
    obtain ⟨hr, hp⟩ := df_regs x.i
    rw [hi] at hp
    have hb := bit10 h.g.fl.eflags
    have hb' : (h.g.fl.eflags &&& BitVec.setWidth Sz.d.bits 1024#64 == 0) = !h.g.fl.eflags.getLsbD 10 := hb
    sexec [hc, BitVec.and_self, hb', Bool.not_eq_true']
    refine ⟨_, by rw [flip_ite], ?_, ?_, fun p hq => ?_⟩
    · sexec [hc]
    · sexec []
    · have := hh p hq
      sexec [hp p hq]
      exact this
  obtain ⟨h2, r2, c2, g2, k2⟩ := ht
  rw [run_append _ r2]
  unfold moved strGoes
  have hg : ∀ df, slide x df h2.g = slide x df h.g := fun df => by rw [g2]
  cases hd : h.g.fl.eflags.getLsbD 10
  · rw [if_neg (by simp)]
    obtain ⟨h3, r3, c3, g3⟩ := move_run e x false h2 c2 k2
    unfold fwd
    rw [List.append_assoc, run_append _ (show run e 0 (moveCode x .add) h2 = _ from r3)]
    rw [hg] at g3
    unfold fwdEnd
    cases hr : x.rep with
    | none =>
      refine ⟨h3, ?_, c3, g3⟩
      show run e (bwd x).length (bwd x) h3 = _
      exact run_over e _ 0 h3
    | some r =>
      obtain ⟨h4, r4, c4, g4⟩ := rep_run e x (bwd x).length r h3 c3
      refine ⟨h4, ?_, c4, by rw [g4, g3]; rfl⟩
      rw [g3] at r4
      dsimp only
      rw [run_append _ r4]
      show run e _ _ _ = .next (if more x r (dec x.a32 (slide x false h.g)) = true then 1 else 0) h4
      split
      · exact run_over e _ 1 h4
      · exact run_over e _ 0 h4
  · rw [if_pos rfl]
    obtain ⟨h3, r3, c3, g3⟩ := move_run e x true h2 c2 k2
    rw [run_append _ (show run e (fwd x).length (fwd x) h2 = .next 0 h2 from run_over e _ 0 h2)]
    unfold bwd
    rw [run_append _ (show run e 0 (moveCode x .sub) h2 = _ from r3)]
    rw [hg] at g3
    unfold bwdEnd
    cases hr : x.rep with
    | none => exact ⟨h3, rfl, c3, g3⟩
    | some r =>
      obtain ⟨h4, r4, c4, g4⟩ := rep_run e x 0 r h3 c3
      refine ⟨h4, ?_, c4, by rw [g4, g3]; rfl⟩
      rw [g3] at r4
      exact r4

end Verif.Emit
