import Verif.Lemmas.EmitLink
import Verif.Props.Emit
import Verif.Lemmas.Tc
import Verif.Lemmas.Bits
/-
C106: the end of a block, and the return stack buffer in words.
-/
namespace Verif.Emit
open Host Spec Bits

theorem bit9 : ∀ i : Fin 32, (0xFFFFFDFF#32).getLsbD i.val = decide (i.val ≠ 9) := by decide

theorem served_iff (p f : BitVec 32) : Served p f ↔ p &&& (f ||| 0xFFFFFDFF#32) ≠ 0#32 := by
  unfold Served
  constructor
  · rintro ⟨i, hi, h1, h2⟩ h0
    have h := congrArg (fun v : BitVec 32 => v.getLsbD i) h0
    rw [BitVec.getLsbD_and, BitVec.getLsbD_or, h1, bit9 ⟨i, hi⟩, Bool.true_and] at h
    by_cases h9 : i = 9
    · subst h9; rw [h2 rfl] at h; cases h
    · simp [h9] at h
  · intro h0
    refine Classical.byContradiction fun hn => h0 (BitVec.eq_of_getLsbD_eq ?_)
    intro i hi
    rw [BitVec.getLsbD_and, BitVec.getLsbD_or, bit9 ⟨i, hi⟩, BitVec.getLsbD_zero]
    refine Bool.eq_false_iff.mpr fun hh => hn ⟨i, hi, (Bool.and_eq_true_iff.mp hh).1, ?_⟩
    intro h9
    have := (Bool.and_eq_true_iff.mp hh).2
    simpa [h9] using this

/-- C106: where a block that ends with a jump or a CALL goes.  The guest's registers and memory stay as they are; the main loop is given no
block to continue from (RAX is null). -/
theorem C106_link (e : Env) (x : Lk) (time : Bool) (t : Tgt) (p : Option Push) (h : Host.St) (r : Ring) (hc : h.r .rcx = e.ctx) :
    (Served x.pend h.g.fl.eflags → ∃ h', lrun e x 0 (linkCode x time t p) h r = .exitInt h' r ∧ h'.g = h.g) ∧
    (¬ Served x.pend h.g.fl.eflags →
      (time = true ∧ Late x → match p with
        | none => ∃ h', lrun e x 0 (linkCode x time t p) h r = .back h' r ∧ h'.g = h.g ∧ h'.r .rax = 0#64
        | some q => ∃ h', lrun e x 0 (linkCode x time t p) h r = .goto (hm64 x.m x.exitAt) h' (pushW r q.tc q.off q.pc) ∧ h'.g = h.g) ∧
      (¬ (time = true ∧ Late x) → ∃ a h', h'.g = h.g ∧ Linked e x h.g.fl.eflags (target e x h t) a ∧
        lrun e x 0 (linkCode x time t p) h r = .goto a h' (match p with | none => r | some q => pushW r q.tc q.off q.pc))) := by
  have hi := intCode_run e x h r hc
    ((if time then timerCode x (p.map fun _ => (t.code ++ lookCode x t).length) else []) ++
      ((t.code ++ lookCode x t) ++ ((match p with | some p => rsbPushCode p | none => []) ++ [.tail])))
  rw [served_iff]
  constructor
  · intro hs
    rw [if_neg hs] at hi
    exact hi
  · intro hs
    rw [if_pos (Decidable.not_not.mp hs)] at hi
    obtain ⟨h1, e1, c1, b1, g1⟩ := hi
    replace e1 : lrun e x 0 (linkCode x time t p) h r = lrun e x 0 ((if time then timerCode x (p.map fun _ => (t.code ++ lookCode x t).length) else []) ++
      ((t.code ++ lookCode x t) ++ ((match p with | some p => rsbPushCode p | none => []) ++ [.tail]))) h1 r := e1
    rw [e1]
    clear e1
    have hc1 : h1.r .rcx = e.ctx := by rw [c1, hc]
    -- from the lookup on
    have look : ∀ h2 : Host.St, h2.r .rcx = e.ctx → h2.g = h.g → h2.r .rbx = h.r .rbx → ∃ a h', h'.g = h.g ∧ Linked e x h.g.fl.eflags (target e x h t) a ∧
        lrun e x 0 ((t.code ++ lookCode x t) ++ ((match p with | some p => rsbPushCode p | none => []) ++ [.tail])) h2 r =
          .goto a h' (match p with | none => r | some q => pushW r q.tc q.off q.pc) := by
      intro h2 c2 g2 b2
      rw [List.append_assoc]
      obtain ⟨h3, e3, a3⟩ := tgt_run e x t h h2 r c2 g2 b2 (lookCode x t ++ ((match p with | some p => rsbPushCode p | none => []) ++ [.tail]))
      obtain ⟨h4, e4, c4, g4, a4⟩ := lookCode_run e x t h h3 r a3 ((match p with | some p => rsbPushCode p | none => []) ++ [.tail])
      cases p with
      | none => exact ⟨h4.r .rax, h4, g4, a4, by rw [e3, e4]; rfl⟩
      | some q =>
        obtain ⟨h5, e5, g5, a5⟩ := rsbPushCode_run e x q h4 r c4 [.tail]
        exact ⟨h4.r .rax, h5, by rw [g5, g4], a4, by rw [e3, e4]; dsimp only; rw [e5, ← a5]; rfl⟩
    constructor
    · rintro ⟨rfl, hl⟩
      rw [if_pos rfl]
      cases p with
      | none =>
        obtain ⟨h2, e2, g2, a2⟩ := timer_back e x h1 r hc1 hl ((t.code ++ lookCode x t) ++ ([] ++ [.tail]))
        exact ⟨h2, e2, by rw [g2, g1], a2⟩
      | some q =>
        obtain ⟨h2, e2, ⟨c2, _, g2⟩, a2⟩ := timer_label e x (t.code ++ lookCode x t).length h1 r hc1 hl ((t.code ++ lookCode x t) ++ (rsbPushCode q ++ [.tail]))
        obtain ⟨h5, e5, g5, a5⟩ := rsbPushCode_run e x q h2 r (by rw [c2, hc1]) [.tail]
        refine ⟨h5, ?_, by rw [g5, g2, g1]⟩
        dsimp only [Option.map_some]
        rw [e2, lrun_over, e5, ← a2, ← a5]
        rfl
    · intro hn
      cases time with
      | false =>
        rw [if_neg (by decide), List.nil_append]
        exact look h1 hc1 g1 b1
      | true =>
        rw [if_pos rfl]
        obtain ⟨h2, e2, c2, b2, g2⟩ := timer_go e x (p.map fun _ => (t.code ++ lookCode x t).length) h1 r hc1 (fun hl => hn ⟨rfl, hl⟩)
          ((t.code ++ lookCode x t) ++ ((match p with | some p => rsbPushCode p | none => []) ++ [.tail]))
        rw [e2]
        exact look h2 (by rw [c2, hc1]) (by rw [g2, g1]) (by rw [b2, b1])

/-- Where a RET goes: what rsb_pop predicts, else the exit function.  The timer makes no difference (C53). -/
theorem C106_ret_words (e : Env) (x : Lk) (time : Bool) (h : Host.St) (r : Ring) (hc : h.r .rcx = e.ctx) :
    (Served x.pend h.g.fl.eflags → ∃ h', lrun e x 0 (retLink x time) h r = .exitInt h' r ∧ h'.g = h.g) ∧
    (¬ Served x.pend h.g.fl.eflags → ∃ h', h'.g = h.g ∧ lrun e x 0 (retLink x time) h r =
      .goto (if (popW e x h.g.fl.eflags r).1 = 0#64 then hm64 x.m x.exitAt else (popW e x h.g.fl.eflags r).1) h' (popW e x h.g.fl.eflags r).2) := by
  have hi := intCode_run e x h r hc ((if time then timerCode x (some 0) else []) ++ rsbPopCode x)
  rw [served_iff]
  constructor
  · intro hs
    rw [if_neg hs] at hi
    exact hi
  · intro hs
    rw [if_pos (Decidable.not_not.mp hs)] at hi
    obtain ⟨h1, e1, c1, _, g1⟩ := hi
    replace e1 : lrun e x 0 (retLink x time) h r = lrun e x 0 ((if time then timerCode x (some 0) else []) ++ rsbPopCode x) h1 r := e1
    rw [e1]
    clear e1
    have hc1 : h1.r .rcx = e.ctx := by rw [c1, hc]
    have pop : ∀ h2 : Host.St, h2.r .rcx = e.ctx → h2.g = h.g → ∃ h', h'.g = h.g ∧ lrun e x 0 (rsbPopCode x) h2 r =
        .goto (if (popW e x h.g.fl.eflags r).1 = 0#64 then hm64 x.m x.exitAt else (popW e x h.g.fl.eflags r).1) h' (popW e x h.g.fl.eflags r).2 := by
      intro h2 c2 g2
      obtain ⟨h3, e3, g3⟩ := rsbPopCode_run e x h2 r c2
      rw [g2] at e3
      exact ⟨h3, by rw [g3, g2], e3⟩
    cases time with
    | false => exact pop h1 hc1 g1
    | true =>
      by_cases hl : Late x
      · obtain ⟨h2, e2, ⟨c2, _, g2⟩, _⟩ := timer_label e x 0 h1 r hc1 hl (rsbPopCode x)
        obtain ⟨h3, g3, e3⟩ := pop h2 (by rw [c2, hc1]) (by rw [g2, g1])
        exact ⟨h3, g3, by rw [if_pos rfl, e2, e3]⟩
      · obtain ⟨h2, e2, c2, _, g2⟩ := timer_go e x (some 0) h1 r hc1 hl (rsbPopCode x)
        obtain ⟨h3, g3, e3⟩ := pop h2 (by rw [c2, hc1]) (by rw [g2, g1])
        exact ⟨h3, g3, by rw [if_pos rfl, e2, e3]⟩

/-! The return stack buffer. -/

variable {tcs : BitVec 64 → TcRec} {addr exit : Tc.Tc → BitVec 64}

theorem says_clear {w : BitVec 64 × BitVec 64} {r : Tc.Rsb} (h : Says tcs addr exit w r) : Says tcs addr exit (0#64, w.2) r.clear :=
  ⟨(by show 0 < 2 ^ 31; decide), (by simp [Tc.Rsb.clear]), h.2.2⟩

theorem says_flush {r : Ring} {s : Tc.St} (h : SaysAll tcs addr exit r s) : SaysAll tcs addr exit (flushW r) (Tc.rsbFlush s) :=
  ⟨rfl, fun i => says_clear (h.2 i)⟩

theorem says_upd {r : Ring} {s : Tc.St} (h : ∀ i, Says tcs addr exit (r.w i) (s.rsb i)) (p : BitVec 6) {w : BitVec 64 × BitVec 64} {q : Tc.Rsb}
    (hq : Says tcs addr exit w q) (i : BitVec 6) : Says tcs addr exit (Tc.upd r.w p w i) (Tc.upd s.rsb p q i) := by
  unfold Tc.upd
  by_cases hi : i = p
  · rw [if_pos hi, if_pos hi]; exact hq
  · rw [if_neg hi, if_neg hi]; exact h i

theorem lk_word (off : Nat) (ho : off < 2 ^ 31) (t : BitVec 32) :
    (0x8000000000000000#64 ||| (BitVec.ofNat 64 off <<< 32) ||| t.setWidth 64).toNat = 2 ^ 63 + off * 2 ^ 32 + t.toNat := by
  have e1 : (BitVec.ofNat 64 off <<< 32).toNat = off <<< 32 := by
    rw [BitVec.toNat_shiftLeft, BitVec.toNat_ofNat, Nat.shiftLeft_eq, Nat.shiftLeft_eq]; omega
  have e2 : (t.setWidth 64).toNat = t.toNat := by rw [BitVec.toNat_setWidth]; have := t.isLt; omega
  rw [BitVec.toNat_or, BitVec.toNat_or, e1, e2, Nat.or_assoc]
  rw [← Nat.shiftLeft_add_eq_or_of_lt t.isLt]
  have e3 : (0x8000000000000000#64).toNat = 1 <<< 63 := by decide
  have hlt : off <<< 32 + t.toNat < 2 ^ 63 := by rw [Nat.shiftLeft_eq]; have := t.isLt; omega
  rw [e3, ← Nat.shiftLeft_add_eq_or_of_lt hlt, Nat.shiftLeft_eq, Nat.shiftLeft_eq]
  omega

/-- The word of a block. -/
def tcWord (addr : Tc.Tc → BitVec 64) : Option Tc.Tc → BitVec 64
  | none => 0#64
  | some t => addr t

theorem says_push {r : Ring} {s : Tc.St} (h : SaysAll tcs addr exit r s) (tc : Option Tc.Tc) (off : Nat) (ho : off < 2 ^ 31) (pc : BitVec 32)
    (ht : ∀ t, tc = some t → addr t ≠ 0#64 ∧ tcs (addr t) = ⟨t.csBase, t.flags, exit t⟩) :
    SaysAll tcs addr exit (pushW r (tcWord addr tc) (BitVec.ofNat 64 off) pc) (Tc.rsbPush s tc off pc) := by
  unfold pushW Tc.rsbPush
  dsimp only
  rw [h.1]
  refine ⟨rfl, says_upd h.2 _ ?_⟩
  refine ⟨ho, ?_, ?_⟩
  · dsimp only; rw [lk_word off ho]; rfl
  · cases tc with
    | none => rfl
    | some t => exact ⟨rfl, ht t rfl⟩

theorem tcPage_iff (a b : BitVec 32) : (a &&& 0xFFFFF000#32 = b &&& 0xFFFFF000#32) ↔ Tc.page a = Tc.page b := by
  unfold Tc.page
  constructor
  · intro h
    have h2 := congrArg (fun x : BitVec 32 => (x >>> 12).setWidth 20) h
    have e : ∀ x : BitVec 32, (x &&& 0xFFFFF000#32) >>> 12 = x >>> 12 := by intro x; bits32
    simpa only [e] using h2
  · intro h
    have h2 := congrArg (fun x : BitVec 20 => x.setWidth 32 <<< 12) h
    have e : ∀ x : BitVec 32, ((x >>> 12).setWidth 20).setWidth 32 <<< 12 = x &&& 0xFFFFF000#32 := by intro x; bits32
    simpa only [e] using h2

theorem says_flushPage {r : Ring} {s : Tc.St} (h : SaysAll tcs addr exit r s) (a : BitVec 32) :
    SaysAll tcs addr exit (flushPageW r a) (Tc.rsbFlushPage s a) := by
  refine ⟨h.1, fun i => ?_⟩
  have ht : ((r.w i).1.setWidth 32 : BitVec 32) = (s.rsb i).target := by
    apply BitVec.eq_of_toNat_eq
    have hv := (h.2 i).2.1
    rw [BitVec.toNat_setWidth, hv]
    have := (s.rsb i).target.isLt
    split <;> omega
  unfold flushPageW Tc.rsbFlushPage
  dsimp only
  rw [ht]
  by_cases hp : (s.rsb i).target &&& 0xFFFFF000#32 = a &&& 0xFFFFF000#32
  · rw [if_pos hp, if_pos ((tcPage_iff _ _).mp hp)]; exact says_clear (h.2 i)
  · rw [if_neg hp, if_neg (fun z => hp ((tcPage_iff _ _).mpr z))]; exact h.2 i

theorem word_parts {w : BitVec 64} {v : Bool} {off : Nat} {t : BitVec 32} (ho : off < 2 ^ 31) (hw : w.toNat = (if v then 2 ^ 63 else 0) + off * 2 ^ 32 + t.toNat) :
    (w &&& 0x8000000000000000#64 = 0#64 ↔ v = false) ∧ w &&& 0xFFFFFFFF#64 = t.setWidth 64 ∧ (w &&& 0x7FFFFFFF00000000#64) >>> 32 = BitVec.ofNat 64 off := by
  have e : w = (if v then 0x8000000000000000#64 else 0#64) ||| ((BitVec.ofNat 31 off).setWidth 64 <<< 32) ||| t.setWidth 64 := by
    have eo : (BitVec.ofNat 31 off).setWidth 64 = BitVec.ofNat 64 off := by
      apply BitVec.eq_of_toNat_eq
      rw [BitVec.toNat_setWidth, BitVec.toNat_ofNat, BitVec.toNat_ofNat]; omega
    apply BitVec.eq_of_toNat_eq
    rw [hw, eo]
    cases v with
    | true => rw [if_pos rfl, if_pos rfl, lk_word off ho]
    | false =>
      have h2 := lk_word off ho t
      rw [if_neg (by decide), if_neg (by decide), BitVec.zero_or, BitVec.toNat_or]
      have e1 : (BitVec.ofNat 64 off <<< 32).toNat = off <<< 32 := by
        rw [BitVec.toNat_shiftLeft, BitVec.toNat_ofNat, Nat.shiftLeft_eq, Nat.shiftLeft_eq]; omega
      have e2 : (t.setWidth 64).toNat = t.toNat := by rw [BitVec.toNat_setWidth]; have := t.isLt; omega
      rw [e1, e2, ← Nat.shiftLeft_add_eq_or_of_lt t.isLt, Nat.shiftLeft_eq]
      omega
  have eo : BitVec.ofNat 64 off = (BitVec.ofNat 31 off).setWidth 64 := by
    apply BitVec.eq_of_toNat_eq
    rw [BitVec.toNat_setWidth, BitVec.toNat_ofNat, BitVec.toNat_ofNat]; omega
  rw [eo, e]
  generalize BitVec.ofNat 31 off = o
  refine ⟨?_, ?_, ?_⟩
  · cases v with
    | true =>
      refine ⟨fun h => ?_, nofun⟩
      have := congrArg (fun x : BitVec 64 => x.getLsbD 63) h
      simp at this
    | false => exact ⟨fun _ => rfl, fun _ => by rw [if_neg (by decide)]; bits64⟩
  · cases v <;> (simp only [if_true, Bool.false_eq_true, if_false]; bits64)
  · cases v <;> (simp only [if_true, Bool.false_eq_true, if_false]; bits64)

theorem says_pop (e : Env) (x : Lk) (efl : BitVec 32) {r : Ring} {s : Tc.St} (h : SaysAll x.tcs addr exit r s) (hb : e.seg 1 = s.csBase)
    (hn : e.seg 1 + x.eip = s.now) (hf : Tc.modeOf x.hfl efl = s.flags) :
    (popW e x efl r).1 = (match (Tc.rsbPop s).1 with | some (t, off) => exit t + BitVec.ofNat 64 off | none => 0#64) ∧
    SaysAll x.tcs addr exit (popW e x efl r).2 (Tc.rsbPop s).2 := by
  have he := h.2 s.rsbPtr
  have hp : SaysAll x.tcs addr exit ⟨Tc.upd r.w s.rsbPtr (0#64, (r.w s.rsbPtr).2), s.rsbPtr + 1#6⟩
      { s with rsb := Tc.upd s.rsb s.rsbPtr (s.rsb s.rsbPtr).clear, rsbPtr := s.rsbPtr + 1#6 } :=
    ⟨rfl, says_upd h.2 _ (says_clear he)⟩
  obtain ⟨ho, hw, ht⟩ := he
  obtain ⟨p1, p2, p3⟩ := word_parts ho hw
  unfold popW Tc.rsbPop
  dsimp only
  rw [h.1]
  by_cases hv : (s.rsb s.rsbPtr).valid = false
  · rw [if_pos (p1.mpr hv), if_pos hv]
    exact ⟨rfl, says_flush h⟩
  · rw [if_neg (fun z => hv (p1.mp z)), if_neg hv]
    cases htc : (s.rsb s.rsbPtr).tc with
    | none =>
      rw [htc] at ht
      dsimp only at ht ⊢
      rw [if_pos ht]
      exact ⟨rfl, hp⟩
    | some t =>
      rw [htc] at ht
      dsimp only at ht ⊢
      rw [if_neg (by rw [ht.1]; exact ht.2.1), ht.1, ht.2.2]
      dsimp only
      rw [p2, p3, hn, hf, hb]
      have eq64 : ((s.now.setWidth 64 : BitVec 64) = (s.rsb s.rsbPtr).target.setWidth 64) ↔ s.now = (s.rsb s.rsbPtr).target := by
        refine ⟨fun z => ?_, fun z => by rw [z]⟩
        have := congrArg (BitVec.setWidth 32) z
        simpa using this
      rw [ht.1] at hp
      by_cases hm : s.now = (s.rsb s.rsbPtr).target ∧ s.csBase = t.csBase ∧ s.flags = t.flags
      · rw [if_pos ⟨eq64.mpr hm.1, hm.2⟩, if_pos hm]; exact ⟨rfl, hp⟩
      · rw [if_neg (fun z => hm ⟨eq64.mp z.1, z.2⟩), if_neg hm]; exact ⟨rfl, says_flush h⟩

/-- What can happen to the buffer: a CALL or an exception pushes, a RET pops (at a linear address, in a mode), flushes. -/
inductive ROp where
  | push (tc : Option Tc.Tc) (off : Nat) (pc : BitVec 32)
  | pop (e : Env) (x : Lk) (efl : BitVec 32)
  | flush
  | flushPage (a : BitVec 32)

/-- Effect on the words. -/
def ROp.words (addr : Tc.Tc → BitVec 64) (r : Ring) : ROp → Ring
  | .push tc off pc => pushW r (tcWord addr tc) (BitVec.ofNat 64 off) pc
  | .pop e x efl => (popW e x efl r).2
  | .flush => flushW r
  | .flushPage a => flushPageW r a
/-- Effect on the buffer of Model/Tc.lean. -/
def ROp.abs (s : Tc.St) : ROp → Tc.St
  | .push tc off pc => Tc.rsbPush s tc off pc
  | .pop e x efl => (Tc.rsbPop { s with csBase := e.seg 1, now := e.seg 1 + x.eip, flags := Tc.modeOf x.hfl efl }).2
  | .flush => Tc.rsbFlush s
  | .flushPage a => Tc.rsbFlushPage s a
/-- Offsets are below 2 GB (the code asserts it), blocks are where they are said to be. -/
def ROp.Fits (tcs : BitVec 64 → TcRec) (addr exit : Tc.Tc → BitVec 64) : ROp → Prop
  | .push tc off _ => off < 2 ^ 31 ∧ ∀ t, tc = some t → addr t ≠ 0#64 ∧ tcs (addr t) = ⟨t.csBase, t.flags, exit t⟩
  | .pop _ x _ => x.tcs = tcs
  | _ => True

/-- C106: over all histories the packed words of the return stack buffer say exactly what the buffer of C49 says. -/
theorem C106_words (tcs : BitVec 64 → TcRec) (addr exit : Tc.Tc → BitVec 64) (l : List ROp) : ∀ (r : Ring) (s : Tc.St), (∀ o ∈ l, o.Fits tcs addr exit) →
    SaysAll tcs addr exit r s → SaysAll tcs addr exit (l.foldl (ROp.words addr) r) (l.foldl ROp.abs s) := by
  induction l with
  | nil => intro r s _ h; exact h
  | cons o l ih =>
    intro r s hf h
    rw [List.foldl_cons, List.foldl_cons]
    refine ih _ _ (fun o ho => hf o (List.mem_cons_of_mem _ ho)) ?_
    have hfo := hf o List.mem_cons_self
    cases o with
    | push tc off pc => exact says_push h tc off hfo.1 pc hfo.2
    | pop e x efl =>
      have hx : x.tcs = tcs := hfo
      subst hx
      exact (says_pop e x efl (s := { s with csBase := e.seg 1, now := e.seg 1 + x.eip, flags := Tc.modeOf x.hfl efl }) h rfl rfl rfl).2
    | flush => exact says_flush h
    | flushPage a => exact says_flushPage h a

/-- C106: after a RET the code goes to the block and offset that the return stack buffer of C49 predicts for the current address, CS base and mode,
else to the exit function; pending requests come first. -/
theorem C106_ret (e : Env) (x : Lk) (time : Bool) (h : Host.St) (r : Ring) (s : Tc.St) (hc : h.r .rcx = e.ctx) (hs : SaysAll x.tcs addr exit r s)
    (hb : e.seg 1 = s.csBase) (hn : e.seg 1 + x.eip = s.now) (hf : Tc.modeOf x.hfl h.g.fl.eflags = s.flags)
    (hz : ∀ t off, off < 2 ^ 31 → exit t + BitVec.ofNat 64 off ≠ 0#64) :
    (Served x.pend h.g.fl.eflags → ∃ h', lrun e x 0 (retLink x time) h r = .exitInt h' r ∧ h'.g = h.g) ∧
    (¬ Served x.pend h.g.fl.eflags → ∃ h' r', h'.g = h.g ∧ SaysAll x.tcs addr exit r' (Tc.rsbPop s).2 ∧ lrun e x 0 (retLink x time) h r =
      .goto (match (Tc.rsbPop s).1 with | some (t, off) => exit t + BitVec.ofNat 64 off | none => hm64 x.m x.exitAt) h' r') := by
  obtain ⟨a, b⟩ := C106_ret_words e x time h r hc
  obtain ⟨p1, p2⟩ := says_pop e x h.g.fl.eflags hs hb hn hf
  refine ⟨a, fun ns => ?_⟩
  obtain ⟨h', g', e'⟩ := b ns
  refine ⟨h', _, g', p2, ?_⟩
  rw [e', p1]
  have hoff : ∀ q, (Tc.rsbPop s).1 = some q → q.2 < 2 ^ 31 := by
    intro q hq
    unfold Tc.rsbPop at hq
    dsimp only at hq
    split at hq
    · cases hq
    · split at hq
      · cases hq
      · split at hq
        · cases hq; exact (hs.2 _).1
        · cases hq
  cases hq : (Tc.rsbPop s).1 with
  | none => rfl
  | some q => dsimp only; rw [if_neg (hz q.1 q.2 (hoff q hq))]

/-- An element that was invalidated is never jumped to. -/
theorem C106_invalid (e : Env) (x : Lk) (efl pc : BitVec 32) (a : BitVec 64) (h : Linked e x efl pc a)
    (hi : (entryAt x.m (e.ctx + x.tbl) (pc.toNat % 4096)).flags = Tc.INVALID) : a = hm64 x.m x.exitAt := by
  unfold Linked at h
  dsimp only at h
  rw [if_neg] at h
  · exact h
  · rintro ⟨_, _, h3⟩
    have := Tc.modeOf_valid x.hfl efl
    rw [← h3, hi] at this
    exact Tc.invalid_self this

/-- Every element of the table that has no block is marked invalid. -/
def Full (s : Tc.St) : Prop := ∀ i, (s.jmp i).tc = none → (s.jmp i).flags = Tc.INVALID

/-- C106: the code jumped to is that of the block C46 to C48 are about (`jumpTo`). -/
theorem C106_jumpTo (e : Env) (x : Lk) (efl pc : BitVec 32) (a : BitVec 64) (s : Tc.St) (code : Tc.Tc → BitVec 64) (h : Linked e x efl pc a)
    (ht : Holds x.m (e.ctx + x.tbl) code s) (hu : Full s) (hb : e.seg 1 = s.csBase) (hf : Tc.modeOf x.hfl efl = s.flags) :
    a = match Tc.jumpTo s pc with | some t => code t | none => hm64 x.m x.exitAt := by
  have hi : (Tc.jidx pc).toNat = pc.toNat % 4096 := by unfold Tc.jidx; rw [BitVec.toNat_setWidth]
  obtain ⟨t1, t2, t3, t4⟩ := ht (Tc.jidx pc)
  rw [hi] at t1 t2 t3 t4
  unfold Linked at h
  unfold Tc.jumpTo
  dsimp only at h ⊢
  rw [t1, t2, t3, hb, hf] at h
  by_cases hm : (s.jmp (Tc.jidx pc)).virt = pc ∧ (s.jmp (Tc.jidx pc)).csBase = s.csBase ∧ (s.jmp (Tc.jidx pc)).flags = s.flags
  · rw [if_pos hm] at h ⊢
    cases htc : (s.jmp (Tc.jidx pc)).tc with
    | some t => rw [h]; exact t4 t htc
    | none =>
      have h1 := hu _ htc
      rw [hm.2.2, ← hf] at h1
      have := Tc.modeOf_valid x.hfl efl
      rw [h1] at this
      exact absurd this Tc.invalid_self
  · rw [if_neg hm] at h ⊢
    exact h

/-! The table has blocks behind every valid element, whatever happened. -/

theorem full_drop {s : Tc.St} (h : Full s) (t : Tc.Tc) : Full (Tc.drop s t) := by
  intro i
  show ((Tc.unlink s t.virt).jmp i).tc = none → ((Tc.unlink s t.virt).jmp i).flags = Tc.INVALID
  unfold Tc.unlink Tc.rsbFlushPage
  dsimp only
  split
  · dsimp only
    unfold Tc.upd
    by_cases hi : i = Tc.jidx t.virt
    · rw [if_pos hi]; exact fun _ => rfl
    · rw [if_neg hi]; exact h i
  · exact h i

theorem full_drops (l : List Tc.Tc) : ∀ {s : Tc.St}, Full s → Full (l.foldl Tc.drop s) := by
  induction l with
  | nil => exact fun h => h
  | cons t l ih => exact fun h => ih (full_drop h t)

theorem full_invalidate {s : Tc.St} (h : Full s) (p : BitVec 32) (n : Nat) : Full (Tc.invalidate s p n) := by
  unfold Tc.invalidate
  dsimp only
  split
  · exact h
  · exact full_drops _ h

theorem full_link {s : Tc.St} (h : Full s) (t : Tc.Tc) : Full (Tc.linkJmp s t) := by
  intro i
  unfold Tc.linkJmp Tc.upd
  dsimp only
  by_cases hi : i = Tc.jidx t.virt
  · rw [if_pos hi]; intro h; cases h
  · rw [if_neg hi]; exact h i

theorem full_kill (s : Tc.St) : Full (Tc.unlinkAll s) := fun _ _ => rfl

theorem full_ite {b : Bool} {s s' : Tc.St} (h : Full s) (h' : Full s') : Full (if b then s else s') := by
  cases b
  · exact h'
  · exact h

theorem full_tail {s : Tc.St} (h : Full s) (t : Tc.Tc) (b : Bool) :
    Full { (if b then Tc.linkJmp (Tc.insert s t) t else Tc.insert s t) with cur := some t } :=
  full_ite (full_link (s := Tc.insert s t) h t) (s' := Tc.insert s t) h

theorem full_main {s : Tc.St} (h : Full s) (d : Tc.Decoder) (v : BitVec 32) (k : Bool) : Full (Tc.mainLoop d s v k).2 := by
  unfold Tc.mainLoop
  dsimp only
  split
  · exact full_ite (full_link (s := { s with smc := _, now := v }) h _) (s' := { s with smc := _, now := v }) h
  · have h0 : Full { s with smc := Tc.upd s.smc (Tc.page (Tc.phys s.map v)) true, now := v, next := s.next + 1 } := h
    have h' := full_ite (b := s.num == 32768) (full_kill { { s with smc := Tc.upd s.smc (Tc.page (Tc.phys s.map v)) true, now := v, next := s.next + 1 } with
      pages := fun _ => [], smc := fun _ => false, cache := fun _ => [], num := 0 }) h0
    split
    · exact full_tail h' _ _
    · exact h'

theorem full_step {s : Tc.St} (h : Full s) (d : Tc.Decoder) (o : Tc.Op) : Full (Tc.step d s o).2 := by
  cases o with
  | run v k => exact full_main h d v k
  | jump v => unfold Tc.step; dsimp only; split <;> exact h
  | call off t => exact h
  | event t => exact h
  | ret v =>
    have hp : (Tc.rsbPop { s with now := v }).2.jmp = s.jmp := by
      unfold Tc.rsbPop
      dsimp only
      split
      · rfl
      · split
        · rfl
        · split <;> rfl
    unfold Tc.step
    dsimp only
    split <;> (intro i; dsimp only; rw [hp]; exact h i)
  | advance v => exact h
  | write p bs =>
    unfold Tc.step Tc.write
    dsimp only
    split
    · exact full_invalidate h _ _
    · exact h
  | writeCross v bs =>
    unfold Tc.step Tc.writeCross
    dsimp only
    split <;> split <;> first
      | exact full_invalidate (full_invalidate h _ _) _ _
      | exact full_invalidate h _ _
      | exact h
  | setMode b f e => exact h
  | invlpg v to =>
    intro i
    unfold Tc.step Tc.unlinkPage Tc.rsbFlushPage
    dsimp only
    split
    · exact fun _ => rfl
    · exact h i
  | flush m => exact full_kill _
  | clear => exact full_kill _
  | purge => exact full_kill _
  | flushCall v => exact h
  | hookAdd a k =>
    unfold Tc.step Tc.hookAdd
    exact full_invalidate (s := { s with smc := Tc.upd s.smc (Tc.page (Tc.phys s.map a)) true }) h _ _
  | hookRemove a =>
    unfold Tc.step Tc.hookRemove
    dsimp only
    split
    · exact h
    · unfold Tc.invalidateHook
      dsimp only
      split
      · exact h
      · exact full_drop (s := { s with hooks := Tc.upd s.hooks a none }) h _
  | serviced => exact h

/-- C106: a valid element always has a block, in every history of the code cache. -/
theorem C106_full (d : Tc.Decoder) (mem : BitVec 32 → BitVec 8) (map : BitVec 20 → BitVec 20) (os : List Tc.Op) : Full (Tc.hist d (Tc.reset mem map) os) := by
  have : ∀ (os : List Tc.Op) (s : Tc.St), Full s → Full (Tc.hist d s os) := by
    intro os
    induction os with
    | nil => exact fun s h => h
    | cons o os ih => exact fun s h => ih _ (full_step h d o)
  exact this os _ (fun _ _ => rfl)

/-! Examples. -/

/-- Host memory with one element in the jump table at 0x3000: that for 0x12345, CS base 0 and mode 0x114, whose code is at 0xAA00.  The exit function of
the block is at 0xBB00. -/
def exHost (flags : BitVec 32) : HMem := fun a =>
  let b := 0x3000 + 24 * 0x345
  let v : Nat := if a.toNat / 8 = 0x500 / 8 then 0xBB00 else if a.toNat / 8 = b / 8 then 0x12345 else if a.toNat / 8 = b / 8 + 1 then flags.toNat else
    if a.toNat / 8 = b / 8 + 2 then 0xAA00 else 0
  BitVec.ofNat 8 (v / 256 ^ (a.toNat % 8))
/-- The block at 0x7700: its code continues at 0xCC00. -/
def exLk (flags pend timer eip : BitVec 32) : Lk :=
  ⟨exHost flags, 0x2000#64, 0x500#64, fun a => if a = 0x7700#64 then ⟨0#32, 0x114#32, 0xCC00#64⟩ else ⟨1#32, 1#32, 0#64⟩, 0x14#32, eip, pend, timer⟩
/-- An empty buffer. -/
def exRing : Ring := ⟨fun _ => (0#64, 0#64), 0#6⟩
/-- How it ends, where it goes, the top of the buffer. -/
def exLEnd : LOut → List Nat
  | .next .. => [0]
  | .goto a _ r => [1, a.toNat, r.ptr.toNat, (r.w r.ptr).1.toNat, (r.w r.ptr).2.toNat]
  | .back _ r => [2, r.ptr.toNat]
  | .exitInt _ r => [3, r.ptr.toNat]
  | .stuck => [4]
/-- A state of the examples: TF set, so the mode has bit 8. -/
def exLs (fl : BitVec 32) : Host.St := { exSt with g := { exSt.g with fl := ⟨fl, 0x100#32, 0#32⟩ } }

-- the element is for the address and mode
example : exLEnd (lrun exEnv (exLk 0x114#32 0#32 0#32 0#32) 0 (linkCode (exLk 0x114#32 0#32 0#32 0#32) true (.known 0x12345#32) none) (exLs 0x102#32) exRing) =
    [1, 0xAA00, 0, 0, 0] := by decide +kernel
-- another mode, another address with the same index
example : exLEnd (lrun exEnv (exLk 0x110#32 0#32 0#32 0#32) 0 (linkCode (exLk 0x110#32 0#32 0#32 0#32) true (.known 0x12345#32) none) (exLs 0x102#32) exRing) =
    [1, 0xBB00, 0, 0, 0] := by decide +kernel
example : exLEnd (lrun exEnv (exLk 0x114#32 0#32 0#32 0x22345#32) 0 (linkCode (exLk 0x114#32 0#32 0#32 0x22345#32) true .eip none) (exLs 0x102#32) exRing) =
    [1, 0xBB00, 0, 0, 0] := by decide +kernel
-- a hardware interrupt is served only if IF is set, another request always
example : exLEnd (lrun exEnv (exLk 0x114#32 0x200#32 0#32 0#32) 0 (linkCode (exLk 0x114#32 0x200#32 0#32 0#32) true (.known 0x12345#32) none) (exLs 0x102#32) exRing) =
    [1, 0xAA00, 0, 0, 0] ∧
  exLEnd (lrun exEnv (exLk 0x114#32 0x200#32 0#32 0#32) 0 (linkCode (exLk 0x114#32 0x200#32 0#32 0#32) true (.known 0x12345#32) none) (exLs 0x302#32) exRing) =
    [3, 0] ∧
  exLEnd (lrun exEnv (exLk 0x114#32 0x10#32 0#32 0#32) 0 (linkCode (exLk 0x114#32 0x10#32 0#32 0#32) true (.known 0x12345#32) none) (exLs 0x102#32) exRing) =
    [3, 0] := by decide +kernel
-- the time is over: back to the main loop, or for a CALL to the exit function with the return address pushed
example : exLEnd (lrun exEnv (exLk 0x114#32 0#32 0x10#32 0#32) 0 (linkCode (exLk 0x114#32 0#32 0x10#32 0#32) true (.known 0x12345#32) none) (exLs 0x102#32) exRing) =
    [2, 0] := by decide +kernel
example : exLEnd (lrun exEnv (exLk 0x114#32 0#32 0x10#32 0#32) 0 (linkCode (exLk 0x114#32 0#32 0x10#32 0#32) true (.known 0x12345#32)
      (some ⟨0x7700#64, 0x30#64, 0x1005#32⟩)) (exLs 0x102#32) exRing) = [1, 0xBB00, 63, 0x8000003000001005, 0x7700] := by decide +kernel
-- RET to the return address goes to the code after the CALL, RET elsewhere to the exit function; both ways the entry is gone
example : exLEnd (lrun exEnv (exLk 0x114#32 0#32 0#32 0x1005#32) 0 (retLink (exLk 0x114#32 0#32 0#32 0x1005#32) true) (exLs 0x102#32)
      (pushW exRing 0x7700#64 0x30#64 0x1005#32)) = [1, 0xCC30, 0, 0, 0] := by decide +kernel
example : exLEnd (lrun exEnv (exLk 0x114#32 0#32 0#32 0x1006#32) 0 (retLink (exLk 0x114#32 0#32 0#32 0x1006#32) true) (exLs 0x102#32)
      (pushW exRing 0x7700#64 0x30#64 0x1005#32)) = [1, 0xBB00, 0, 0, 0] := by decide +kernel

/-- The empty buffer says what the buffer after a reset says. -/
theorem says_reset (tcs : BitVec 64 → TcRec) (addr exit : Tc.Tc → BitVec 64) (mem : BitVec 32 → BitVec 8) (map : BitVec 20 → BitVec 20) :
    SaysAll tcs addr exit exRing (Tc.reset mem map) := by
  refine ⟨rfl, fun i => ⟨?_, ?_, ?_⟩⟩
  · show 0 < 2 ^ 31; decide
  · simp [exRing, Tc.reset]
  · exact rfl

/-- A block. -/
def exTcb : Tc.Tc := ⟨0, 0#32, 0x1000#32, 0x1000#32, 0x114#32, 5, [], none⟩
-- C106_words: a CALL, a CALL from a block not kept, a return, a flush of a page
example : ∃ l : List ROp, l.length = 4 ∧ ∀ o ∈ l, o.Fits (fun _ => ⟨0#32, 0x114#32, 0xCC00#64⟩) (fun _ => 0x7700#64) (fun _ => 0xCC00#64) := by
  refine ⟨[.push none 0x40 0x2005#32, .pop exEnv { exLk 0#32 0#32 0#32 0#32 with tcs := fun _ => ⟨0#32, 0x114#32, 0xCC00#64⟩ } 2#32, .flush, .flushPage 1#32], rfl, ?_⟩
  intro o ho
  simp only [List.mem_cons, List.not_mem_nil, or_false] at ho
  rcases ho with rfl | rfl | rfl | rfl
  · exact ⟨by decide, by intro t h; cases h⟩
  · rfl
  · trivial
  · trivial
example : (ROp.push (some exTcb) 0x30 0x1005#32).Fits (exLk 0#32 0#32 0#32 0#32).tcs (fun _ => 0x7700#64) (fun _ => 0xCC00#64) :=
  ⟨by decide, by intro t h; cases h; exact ⟨by decide, rfl⟩⟩
-- C106_ret: offsets never wrap to address 0
example : ∀ (t : Tc.Tc) (off : Nat), off < 2 ^ 31 → (fun _ : Tc.Tc => 0xCC00#64) t + BitVec.ofNat 64 off ≠ 0#64 := by
  intro _ off h h0
  have := congrArg BitVec.toNat h0
  simp at this
  omega

/-- Host memory whose jump table at 0x3000 has no valid element. -/
def exFresh : HMem := fun a => if (a.toNat - 0x3000) % 24 = 11 then 0x80#8 else 0#8
theorem exFresh_at : ∀ i j : Fin 64, ((entryAt exFresh 0x3000#64 (64 * i.val + j.val)).pc == 0#32 && (entryAt exFresh 0x3000#64 (64 * i.val + j.val)).csBase == 0#32 &&
    (entryAt exFresh 0x3000#64 (64 * i.val + j.val)).flags == 0x80000000#32) = true := by decide +kernel
-- C106_jumpTo: it is what the table of a cpu just reset says
example (mem : BitVec 32 → BitVec 8) (map : BitVec 20 → BitVec 20) : Holds exFresh 0x3000#64 (fun _ => 0xAA00#64) (Tc.reset mem map) ∧ Full (Tc.reset mem map) := by
  refine ⟨fun i => ?_, fun _ _ => rfl⟩
  have hi := i.isLt
  have h := exFresh_at ⟨i.toNat / 64, by omega⟩ ⟨i.toNat % 64, by omega⟩
  rw [show 64 * (⟨i.toNat / 64, by omega⟩ : Fin 64).val + (⟨i.toNat % 64, by omega⟩ : Fin 64).val = i.toNat from Nat.div_add_mod _ _] at h
  simp only [Bool.and_eq_true, beq_iff_eq] at h
  exact ⟨h.1.1, h.1.2, h.2, by intro t ht; cases ht⟩

end Verif.Emit
