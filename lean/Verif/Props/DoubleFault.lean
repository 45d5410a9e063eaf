import Verif.Spec.DoubleFault
import Verif.Lemmas.Oks
import Verif.Props.Mode
/-
C40: double and triple faults.  C68: a delivery that faults leaves the registers unchanged.
-/
namespace Verif.Seg
open Spec (Class Event classOf Verdict table Raises Handled)

/-- What a delivery may stop with. -/
def GoodStop : Stop → Prop
  | .exc i _ => 10 ≤ i ∧ i ≤ 13
  | _ => True

/-- A program that stops only with a contributory exception, a page fault or an abort, and then has not
changed the registers. -/
structure Stops {α : Type} (m : M α) : Prop where
  run : ∀ s e s', m s = .stop e s' → GoodStop e ∧ s'.r = s.r

/-- A program that never changes the registers. -/
abbrev Pure' {α : Type} (m : M α) : Prop := ∀ r0, Keeps (fun r => r = r0) m

theorem stops_bind {α β : Type} {m : M α} {f : α → M β} (hk : Pure' m) (hm : Stops m) (hf : ∀ a, Stops (f a)) :
    Stops (m >>= f) := by
  constructor
  intro s e s' hr
  rcases bind_stop.1 hr with h | ⟨a, s1, h1, h2⟩
  · exact hm.run s e s' h
  · have := (hf a).run s1 e s' h2
    have hk := (hk s.r).run s rfl
    rw [h1] at hk
    exact ⟨this.1, this.2.trans hk⟩
theorem stops_check {β : Type} {c : Bool} {e : Stop} {f : Unit → M β} (he : GoodStop e) (hf : Stops (f ())) :
    Stops (check c e >>= f) := by
  constructor
  intro s e' s' hr
  rw [bind_check] at hr
  cases c with
  | false => exact hf.run s e' s' (by simpa using hr)
  | true => rw [if_pos rfl] at hr; cases hr; exact ⟨he, rfl⟩
theorem stops_getR {β : Type} {f : Regs → M β} (hf : ∀ r, Stops (f r)) : Stops (getR >>= f) :=
  ⟨fun s e s' hr => (hf s.r).run s e s' hr⟩
theorem stops_modR (f : Regs → Regs) : Stops (modR f) := ⟨fun s e s' hr => by cases hr⟩
theorem stops_modR2 (f g : Regs → Regs) : Stops (modR f >>= fun _ => modR g) := ⟨fun s e s' hr => by cases hr⟩
theorem stops_pure {α : Type} (a : α) : Stops (pure a : M α) := ⟨fun s e s' hr => by cases hr⟩
theorem stops_rd (acc : Acc) (a : BitVec 32) (k p : Nat) : Stops (rd acc a k p) := by
  constructor; intro s e s' h; unfold rd at h
  split at h
  · cases h
  · cases h; exact ⟨trivial, rfl⟩
theorem stops_wr (acc : Acc) (a : BitVec 32) (k p v : Nat) : Stops (wr acc a k p v) := by
  constructor; intro s e s' h; unfold wr at h
  split at h
  · cases h
  · cases h; exact ⟨trivial, rfl⟩
theorem stops_ite {α : Type} {c : Prop} [Decidable c] {m n : M α} (hm : Stops m) (hn : Stops n) :
    Stops (if c then m else n) := by split <;> assumption
theorem stops_mapExc {α : Type} {m : M α} {f : Nat → BitVec 16 → Stop} (hm : Stops m)
    (hf : ∀ i c, GoodStop (.exc i c) → GoodStop (f i c)) : Stops (mapExc f m) := by
  constructor
  intro s e s' h
  unfold mapExc at h
  cases hms : m s with
  | ok a s1 => rw [hms] at h; cases h
  | stop e1 s1 =>
    have := hm.run s e1 s1 hms
    rw [hms] at h
    cases e1 with
    | exc i c => cases h; exact ⟨hf i c this.1, this.2⟩
    | fault => cases h; exact this
    | abort => cases h; exact this

theorem stops_readDesc (acc : Acc) (sel : BitVec 16) : Stops (readDesc acc false sel) := by
  constructor
  intro s e s' h
  rw [readDesc_eq] at h
  by_cases h1 : outside s.r sel
  · rw [if_pos h1] at h; cases h; exact ⟨⟨by omega, by omega⟩, rfl⟩
  · rw [if_neg h1] at h
    by_cases h2 : acc s (Spec.descAddr s.r sel) 8 false 2 = true
    · rw [if_pos h2] at h; cases h
    · rw [if_neg h2] at h; cases h; exact ⟨trivial, rfl⟩
theorem stops_setAccessed (acc : Acc) (d : BitVec 64) (a : BitVec 32) : Stops (setAccessed acc d a) :=
  ⟨fun s e s' h => by obtain ⟨h1, h2⟩ := setAccessed_stop h; rw [h1, h2]; exact ⟨trivial, rfl⟩⟩
theorem stops_pushRaw (acc : Acc) (k : Nat) (b m : BitVec 32) (p : Nat) (sp v : BitVec 32) :
    Stops (pushRaw acc k b m p sp v) := by
  unfold pushRaw
  exact stops_bind (fun _ => keeps_wr ..) (stops_wr ..) fun _ => stops_pure _
theorem stops_pushAll (acc : Acc) (k : Nat) (b m : BitVec 32) (p : Nat) (vs : List (BitVec 32)) (sp : BitVec 32) :
    Stops (pushAll acc k b m p vs sp) := by
  induction vs generalizing sp with
  | nil => exact stops_pure _
  | cons v vs ih => exact stops_bind (fun _ => keeps_pushRaw ..) (stops_pushRaw ..) fun _ => ih _
theorem good_ts (c : BitVec 16) : GoodStop (.exc TS c) := ⟨by decide, by decide⟩
theorem good_gp (c : BitVec 16) : GoodStop (.exc GP c) := ⟨by decide, by decide⟩
theorem good_np (c : BitVec 16) : GoodStop (.exc NP c) := ⟨by decide, by decide⟩
theorem stops_tssStack (acc : Acc) (d p : Nat) : Stops (tssStack acc d p) := by
  unfold tssStack
  refine stops_getR fun r => ?_
  refine stops_check (good_ts _) ?_
  refine stops_bind (fun _ => keeps_rd ..) (stops_rd ..) fun _ => ?_
  exact stops_bind (fun _ => keeps_rd ..) (stops_rd ..) fun _ => stops_pure _
theorem stops_newStack (acc : Acc) (x : BitVec 16) (vm : Bool) (d : Nat) : Stops (newStack acc x vm d) := by
  unfold newStack
  refine stops_bind (fun _ => keeps_mapExc _ (keeps_tssStack ..)) (stops_mapExc (stops_tssStack ..) fun i c h => h) fun p => ?_
  refine stops_check (good_ts _) ?_
  refine stops_bind (fun _ => keeps_mapExc _ (keeps_readDesc ..))
    (stops_mapExc (stops_readDesc ..) fun i c h => good_ts _) fun q => ?_
  refine stops_check (good_ts _) ?_
  exact stops_bind (fun _ => keeps_setAccessed ..) (stops_setAccessed ..) fun _ => stops_pure _
theorem stops_vmeRedirect (acc : Acc) (idx : Nat) (cr2 : BitVec 32) : Stops (vmeRedirect acc idx cr2) := by
  unfold vmeRedirect
  refine stops_getR fun r => ?_
  refine stops_bind (fun _ => keeps_pushAll ..) (stops_pushAll ..) fun _ => ?_
  exact stops_bind (fun _ => keeps_rd ..) (stops_rd ..) fun _ => stops_modR _
theorem stops_fromVm86 (acc : Acc) (k : Kind) (idx : Nat) (code : BitVec 16) (cr2 : BitVec 32) (is32 : Bool)
    (eflags neip : BitVec 32) (sel : BitVec 16) (cd : BitVec 64) (dpl : Nat) :
    Stops (fromVm86 acc k idx code cr2 is32 eflags neip sel cd dpl) := by
  unfold fromVm86
  refine stops_getR fun r => ?_
  refine stops_check (good_gp _) ?_
  refine stops_bind (fun _ => keeps_newStack ..) (stops_newStack ..) fun _ => ?_
  exact stops_bind (fun _ => keeps_pushAll ..) (stops_pushAll ..) fun _ => stops_modR _
theorem stops_deliverIdt (acc : Acc) (k : Kind) (idx : Nat) (code : BitVec 16) (cr2 : BitVec 32) :
    Stops (deliverIdt acc k idx code cr2) := by
  unfold deliverIdt
  refine stops_getR fun r => ?_
  refine stops_check (good_gp _) ?_
  refine stops_bind (fun _ => keeps_rd ..) (stops_rd ..) fun dv => ?_
  refine stops_check trivial ?_
  refine stops_check (good_gp _) ?_
  refine stops_check (good_gp _) ?_
  refine stops_check (good_np _) ?_
  refine stops_check (good_gp _) ?_
  refine stops_bind (fun _ => keeps_mapExc _ (keeps_readDesc ..))
    (stops_mapExc (stops_readDesc ..) fun i c h => h) fun p => ?_
  refine stops_check (good_gp _) ?_
  refine stops_check (good_np _) ?_
  refine stops_bind (fun _ => keeps_setAccessed ..) (stops_setAccessed ..) fun _ => ?_
  refine stops_ite ?_ ?_
  · refine stops_ite (stops_fromVm86 ..) ?_
    refine stops_bind (fun _ => keeps_newStack ..) (stops_newStack ..) fun q => ?_
    exact stops_bind (fun _ => keeps_pushAll ..) (stops_pushAll ..) fun sp => stops_modR2 _ _
  · refine stops_check (good_gp _) ?_
    exact stops_bind (fun _ => keeps_pushAll ..) (stops_pushAll ..) fun sp => stops_modR _
theorem stops_deliver (acc : Acc) (k : Kind) (idx : Nat) (code : BitVec 16) (cr2 : BitVec 32) :
    Stops (deliver acc k idx code cr2) := by
  unfold deliver
  refine stops_getR fun r => ?_
  refine stops_ite ?_ ?_
  · refine stops_check (good_gp _) ?_
    refine stops_ite ?_ (stops_deliverIdt ..)
    refine stops_bind (fun _ => keeps_rd ..) (stops_rd ..) fun _ => ?_
    refine stops_bind (fun _ => keeps_rd ..) (stops_rd ..) fun _ => ?_
    refine stops_ite (stops_vmeRedirect ..) ?_
    exact stops_check (good_gp _) (stops_deliverIdt ..)
  · unfold deliverReal
    refine stops_getR fun r => ?_
    refine stops_check (good_gp _) ?_
    refine stops_bind (fun _ => keeps_rd ..) (stops_rd ..) fun _ => ?_
    exact stops_bind (fun _ => keeps_pushAll ..) (stops_pushAll ..) fun _ => stops_modR _

/-- raise after check_dbl_exp. -/
def body (acc : Acc) (pf : Cpu → BitVec 16 × BitVec 32) (fuel : Nat) (old : Option Nat) (e : Event) (s : Cpu) : Outcome :=
  match deliver acc e.kind e.idx e.code e.cr2 s with
  | .ok _ s => .done s
  | .stop (.exc i c) s => raise acc pf fuel .exn old i c e.cr2 s
  | .stop .fault s => raise acc pf fuel .exn old 14 (pf s).1 (pf s).2 s
  | .stop .abort s => .abort s

theorem raise_eq (acc : Acc) (pf : Cpu → BitVec 16 × BitVec 32) (fuel : Nat) (k : Kind) (old : Option Nat) (idx : Nat)
    (code : BitVec 16) (cr2 : BitVec 32) (s : Cpu) : raise acc pf (fuel + 1) k old idx code cr2 s =
    match (if k.intn = 0 ∧ k.hw = false then checkDbl old idx code else .go idx code old) with
    | .shutdown => .shutdown s
    | .go idx code old => body acc pf fuel old ⟨k, idx, code, cr2⟩ s := by
  conv => lhs; unfold raise
  dsimp only
  cases (if k.intn = 0 ∧ k.hw = false then checkDbl old idx code else .go idx code old) <;> rfl

/-- The second event, with what the code does next. -/
theorem body_cases (acc : Acc) (pf : Cpu → BitVec 16 × BitVec 32) (fuel : Nat) (old : Option Nat) (e : Event) (s : Cpu) :
    (Handled acc pf e s (body acc pf fuel old e s)) ∨
    ∃ e2 s2, Raises acc pf e s e2 s2 ∧ e2.kind = .exn ∧ (e2.idx = 14 ∨ (10 ≤ e2.idx ∧ e2.idx ≤ 13)) ∧
      body acc pf fuel old e s = raise acc pf fuel .exn old e2.idx e2.code e2.cr2 s2 := by
  unfold body
  cases hd : deliver acc e.kind e.idx e.code e.cr2 s with
  | ok u s' => exact .inl (.delivered e s s' hd)
  | stop st s' =>
    have hg := (stops_deliver acc e.kind e.idx e.code e.cr2).run s st s' hd
    cases st with
    | exc i c => exact .inr ⟨_, s', .exc i c s' hd, rfl, .inr hg.1, rfl⟩
    | fault => exact .inr ⟨_, s', .page s' hd, rfl, .inl rfl, rfl⟩
    | abort => exact .inl (.aborted e s s' hd)

theorem class_second {e : Event} (hk : e.kind = .exn) (hi : e.idx = 14 ∨ (10 ≤ e.idx ∧ e.idx ≤ 13)) :
    (classOf e = .pageFault ∧ e.idx = 14) ∨ (classOf e = .contributory ∧ contributory e.idx = true) := by
  unfold classOf
  rw [hk]
  rcases hi with hi | hi
  · left; simp [Kind.exn, hi]
  · right
    have h8 : e.idx ≠ 8 := by omega
    have h14 : e.idx ≠ 14 := by omega
    have : e.idx = 0 ∨ e.idx = 10 ∨ e.idx = 11 ∨ e.idx = 12 ∨ e.idx = 13 := by omega
    refine ⟨by simp [Kind.exn, h8, h14, this], ?_⟩
    unfold contributory; simp; omega

/-- Double fault being delivered. -/
theorem handled_df (acc : Acc) (pf : Cpu → BitVec 16 × BitVec 32) (fuel : Nat) (e : Event) (s : Cpu)
    (hc : classOf e = .doubleFault) : Handled acc pf e s (body acc pf (fuel + 1) (some 8) e s) := by
  rcases body_cases acc pf (fuel + 1) (some 8) e s with h | ⟨e2, s2, h1, h2, h3, h4⟩
  · exact h
  · rw [h4, raise_eq]
    have : (if Kind.exn.intn = 0 ∧ Kind.exn.hw = false then checkDbl (some 8) e2.idx e2.code else .go e2.idx e2.code (some 8)) =
        .shutdown := by rw [if_pos ⟨rfl, rfl⟩]; rfl
    rw [this]
    refine .shutdown e s e2 s2 h1 ?_
    rw [hc]
    rcases class_second h2 h3 with h | h <;> rw [h.1] <;> rfl

/-- Page fault being delivered. -/
theorem handled_pf (acc : Acc) (pf : Cpu → BitVec 16 × BitVec 32) (fuel : Nat) (e : Event) (s : Cpu)
    (hc : classOf e = .pageFault) : Handled acc pf e s (body acc pf (fuel + 2) (some 14) e s) := by
  rcases body_cases acc pf (fuel + 2) (some 14) e s with h | ⟨e2, s2, h1, h2, h3, h4⟩
  · exact h
  · rw [h4, raise_eq, if_pos ⟨rfl, rfl⟩]
    have hcc := class_second h2 h3
    have : checkDbl (some 14) e2.idx e2.code = .go 8 0#16 (some 8) := by
      unfold checkDbl
      rcases hcc with h | h
      · simp [h.2, contributory]
      · simp [h.2]
    rw [this]
    refine .double e s e2 s2 _ h1 ?_ (handled_df acc pf fuel ⟨.exn, 8, 0#16, e2.cr2⟩ s2 rfl)
    rw [hc]
    rcases hcc with h | h <;> rw [h.1] <;> rfl

/-- Contributory exception being delivered. -/
theorem handled_con (acc : Acc) (pf : Cpu → BitVec 16 × BitVec 32) (fuel : Nat) (e : Event) (s : Cpu) (i : Nat)
    (hi : contributory i = true) (h8 : i ≠ 8) (h14 : i ≠ 14)
    (hc : classOf e = .contributory) : Handled acc pf e s (body acc pf (fuel + 3) (some i) e s) := by
  rcases body_cases acc pf (fuel + 3) (some i) e s with h | ⟨e2, s2, h1, h2, h3, h4⟩
  · exact h
  · rw [h4, raise_eq, if_pos ⟨rfl, rfl⟩]
    rcases class_second h2 h3 with h | h
    · have : checkDbl (some i) e2.idx e2.code = .go 14 e2.code (some 14) := by
        unfold checkDbl; simp [h.2, contributory, h8, h14]
      rw [this]
      refine .serial e s e2 s2 _ h1 (by rw [hc, h.1]; rfl) ?_
      have e2' : e2 = ⟨.exn, 14, e2.code, e2.cr2⟩ := by
        cases e2; simp only at h2 h; rw [h2, h.2]
      have := handled_pf acc pf fuel e2 s2 h.1
      rw [e2'] at this ⊢
      exact this
    · have : checkDbl (some i) e2.idx e2.code = .go 8 0#16 (some 8) := by
        unfold checkDbl; simp [h.2, hi, h8]
      rw [this]
      exact .double e s e2 s2 _ h1 (by rw [hc, h.1]; rfl) (handled_df acc pf (fuel + 1) ⟨.exn, 8, 0#16, e2.cr2⟩ s2 rfl)

/-- Benign event being delivered. -/
theorem handled_ben (acc : Acc) (pf : Cpu → BitVec 16 × BitVec 32) (fuel : Nat) (e : Event) (s : Cpu)
    (hc : classOf e = .benign) : Handled acc pf e s (body acc pf (fuel + 4) none e s) := by
  rcases body_cases acc pf (fuel + 4) none e s with h | ⟨e2, s2, h1, h2, h3, h4⟩
  · exact h
  · rw [h4, raise_eq, if_pos ⟨rfl, rfl⟩]
    refine .serial e s e2 s2 _ h1 (by rw [hc]; rfl) ?_
    have e2' : e2 = ⟨.exn, e2.idx, e2.code, e2.cr2⟩ := by
      cases e2; simp only at h2; rw [h2]
    rcases class_second h2 h3 with h | h
    · have : checkDbl none e2.idx e2.code = .go e2.idx e2.code (some 14) := by
        unfold checkDbl; simp [h.2, contributory]
      rw [this]
      have := handled_pf acc pf (fuel + 1) e2 s2 h.1
      rw [e2'] at this ⊢
      exact this
    · have h8 : e2.idx ≠ 8 := by omega
      have h14 : e2.idx ≠ 14 := by intro h'; rw [h'] at h; simp [contributory] at h
      have : checkDbl none e2.idx e2.code = .go e2.idx e2.code (some e2.idx) := by
        unfold checkDbl; simp [h.2]
      rw [this]
      have := handled_con acc pf fuel e2 s2 e2.idx h.2 h8 h14 h.1
      rw [e2'] at this ⊢
      exact this

/-- Every event is handled according to the table of double faults, and its handling terminates: delivered
serially, promoted to #DF with error code 0, or shut down. -/
theorem C40_table (acc : Acc) (pf : Cpu → BitVec 16 × BitVec 32) (k : Kind) (idx : Nat) (code : BitVec 16)
    (cr2 : BitVec 32) (s : Cpu) : Handled acc pf ⟨k, idx, code, cr2⟩ s (exec acc pf (.event k idx code cr2) s) := by
  show Handled acc pf _ s (raise acc pf 5 k none idx code cr2 s)
  rw [raise_eq]
  by_cases hk : k.intn = 0 ∧ k.hw = false
  · rw [if_pos hk]
    have hck : ¬ (k.intn ≠ 0 ∨ k.hw = true) := by
      rintro (h | h)
      · exact h hk.1
      · rw [hk.2] at h; cases h
    by_cases h8 : idx = 8
    · subst h8
      have : checkDbl none 8 code = .go 8 code (some 8) := rfl
      rw [this]
      exact handled_df acc pf 3 _ s (by unfold classOf; rw [if_neg hck]; rfl)
    · by_cases h14 : idx = 14
      · subst h14
        have : checkDbl none 14 code = .go 14 code (some 14) := rfl
        rw [this]
        exact handled_pf acc pf 2 _ s (by unfold classOf; rw [if_neg hck]; rfl)
      · by_cases hc : idx = 0 ∨ idx = 10 ∨ idx = 11 ∨ idx = 12 ∨ idx = 13
        · have hcc : contributory idx = true := by unfold contributory; simp; omega
          have : checkDbl none idx code = .go idx code (some idx) := by unfold checkDbl; simp [hcc]
          rw [this]
          exact handled_con acc pf 1 _ s idx hcc h8 h14 (by
            unfold classOf; rw [if_neg hck, if_neg h8, if_neg h14, if_pos hc])
        · have hcc : contributory idx = false := by unfold contributory; simp; omega
          have : checkDbl none idx code = .go idx code none := by unfold checkDbl; simp [hcc, h8, h14]
          rw [this]
          exact handled_ben acc pf 0 _ s (by
            unfold classOf; rw [if_neg hck, if_neg h8, if_neg h14, if_neg hc])
  · rw [if_neg hk]
    have hck : k.intn ≠ 0 ∨ k.hw = true := by
      by_cases h0 : k.intn = 0
      · right; cases hh : k.hw with
        | true => rfl
        | false => exact absurd ⟨h0, hh⟩ hk
      · exact .inl h0
    exact handled_ben acc pf 0 _ s (by unfold classOf; rw [if_pos hck])

/-- The handling is unique: `Handled` is a function of the event and the state. -/
theorem C40_unique (acc : Acc) (pf : Cpu → BitVec 16 × BitVec 32) (e : Event) (s : Cpu) (o o' : Outcome)
    (h : Handled acc pf e s o) (h' : Handled acc pf e s o') : o = o' := by
  have det : ∀ {e s e2 s2 e3 s3}, Raises acc pf e s e2 s2 → Raises acc pf e s e3 s3 → e2 = e3 ∧ s2 = s3 := by
    intro e s e2 s2 e3 s3 h1 h2
    cases h1 with
    | exc i c _ h => cases h2 with
      | exc i' c' _ h' => rw [h] at h'; cases h'; exact ⟨rfl, rfl⟩
      | page _ h' => rw [h] at h'; cases h'
    | page _ h => cases h2 with
      | exc i' c' _ h' => rw [h] at h'; cases h'
      | page _ h' => rw [h] at h'; cases h'; exact ⟨rfl, rfl⟩
  have nores : ∀ {e s e2 s2}, Raises acc pf e s e2 s2 →
      (∀ s', deliver acc e.kind e.idx e.code e.cr2 s ≠ .ok () s') ∧
      (∀ s', deliver acc e.kind e.idx e.code e.cr2 s ≠ .stop .abort s') := by
    intro e s e2 s2 h
    cases h with
    | exc i c _ h => rw [h]; exact ⟨fun _ h => (by cases h), fun _ h => (by cases h)⟩
    | page _ h => rw [h]; exact ⟨fun _ h => (by cases h), fun _ h => (by cases h)⟩
  induction h generalizing o' with
  | delivered e s s' h =>
    cases h' with
    | delivered _ _ s2 h2 => rw [h] at h2; cases h2; rfl
    | aborted _ _ s2 h2 => rw [h] at h2; cases h2
    | serial _ _ _ _ _ h2 _ _ => exact absurd h ((nores h2).1 _)
    | double _ _ _ _ _ h2 _ _ => exact absurd h ((nores h2).1 _)
    | shutdown _ _ _ _ h2 _ => exact absurd h ((nores h2).1 _)
  | aborted e s s' h =>
    cases h' with
    | delivered _ _ s2 h2 => rw [h] at h2; cases h2
    | aborted _ _ s2 h2 => rw [h] at h2; cases h2; rfl
    | serial _ _ _ _ _ h2 _ _ => exact absurd h ((nores h2).2 _)
    | double _ _ _ _ _ h2 _ _ => exact absurd h ((nores h2).2 _)
    | shutdown _ _ _ _ h2 _ => exact absurd h ((nores h2).2 _)
  | serial e s e2 s2 o h hv hn ih =>
    cases h' with
    | delivered _ _ _ h2 => exact absurd h2 ((nores h).1 _)
    | aborted _ _ _ h2 => exact absurd h2 ((nores h).2 _)
    | serial _ _ _ _ _ h2 hv2 hn2 => obtain ⟨rfl, rfl⟩ := det h h2; exact ih _ hn2
    | double _ _ _ _ _ h2 hv2 hn2 => obtain ⟨rfl, rfl⟩ := det h h2; rw [hv] at hv2; cases hv2
    | shutdown _ _ _ _ h2 hv2 => obtain ⟨rfl, rfl⟩ := det h h2; rw [hv] at hv2; cases hv2
  | double e s e2 s2 o h hv hn ih =>
    cases h' with
    | delivered _ _ _ h2 => exact absurd h2 ((nores h).1 _)
    | aborted _ _ _ h2 => exact absurd h2 ((nores h).2 _)
    | serial _ _ _ _ _ h2 hv2 hn2 => obtain ⟨rfl, rfl⟩ := det h h2; rw [hv] at hv2; cases hv2
    | double _ _ _ _ _ h2 hv2 hn2 => obtain ⟨rfl, rfl⟩ := det h h2; exact ih _ hn2
    | shutdown _ _ _ _ h2 hv2 => obtain ⟨rfl, rfl⟩ := det h h2; rw [hv] at hv2; cases hv2
  | shutdown e s e2 s2 h hv =>
    cases h' with
    | delivered _ _ _ h2 => exact absurd h2 ((nores h).1 _)
    | aborted _ _ _ h2 => exact absurd h2 ((nores h).2 _)
    | serial _ _ _ _ _ h2 hv2 hn2 => obtain ⟨rfl, rfl⟩ := det h h2; rw [hv] at hv2; cases hv2
    | double _ _ _ _ _ h2 hv2 hn2 => obtain ⟨rfl, rfl⟩ := det h h2; rw [hv] at hv2; cases hv2
    | shutdown _ _ _ _ h2 hv2 => obtain ⟨rfl, rfl⟩ := det h h2; rfl

/-- Nested delivery never runs out: no event, whatever the tables in memory, is handled forever. -/
theorem C40_terminates (acc : Acc) (pf : Cpu → BitVec 16 × BitVec 32) (o : Op) (s : Cpu) :
    exec acc pf o s ≠ .outOfFuel := by
  have key : ∀ k idx code cr2 s, raise acc pf 5 k none idx code cr2 s ≠ .outOfFuel := by
    intro k idx code cr2 s
    have h : Handled acc pf ⟨k, idx, code, cr2⟩ s (raise acc pf 5 k none idx code cr2 s) := C40_table acc pf k idx code cr2 s
    generalize raise acc pf 5 k none idx code cr2 s = x at h
    generalize (⟨k, idx, code, cr2⟩ : Event) = e at h
    induction h with
    | delivered => intro h; cases h
    | aborted => intro h; cases h
    | serial _ _ _ _ _ _ _ _ ih => exact ih
    | double _ _ _ _ _ _ _ _ ih => exact ih
    | shutdown => intro h; cases h
  unfold exec
  split
  · exact key _ _ _ _ _
  · split
    · intro h; cases h
    · exact key _ _ _ _ _
    · exact key _ _ _ _ _
    · intro h; cases h

/-- A delivery that raises a second event has not changed any register: the second event sees, and
pushes, the state of the first. -/
theorem C68_restartable (acc : Acc) (pf : Cpu → BitVec 16 × BitVec 32) (e e2 : Event) (s s2 : Cpu)
    (h : Raises acc pf e s e2 s2) : s2.r = s.r ∧
    (classOf e2 = .contributory ∨ classOf e2 = .pageFault) := by
  have : ∀ st, deliver acc e.kind e.idx e.code e.cr2 s = .stop st s2 → s2.r = s.r ∧ GoodStop st :=
    fun st hh => ⟨((stops_deliver ..).run s st s2 hh).2, ((stops_deliver ..).run s st s2 hh).1⟩
  cases h with
  | exc i c _ h =>
    have hh := this _ h
    refine ⟨hh.1, ?_⟩
    rcases class_second (e := ⟨.exn, i, c, e.cr2⟩) rfl (.inr hh.2) with h | h
    · exact .inr h.1
    · exact .inl h.1
  | page _ h => exact ⟨(this _ h).1, .inr rfl⟩

/-- Every outcome other than a completed delivery leaves the registers as they were. -/
theorem C68_shutdown (acc : Acc) (pf : Cpu → BitVec 16 × BitVec 32) (e : Event) (s s' : Cpu) (o : Outcome)
    (h : Handled acc pf e s o) (ho : o = .shutdown s' ∨ o = .abort s') : s'.r = s.r := by
  induction h with
  | delivered e s s1 h => rcases ho with ho | ho <;> cases ho
  | aborted e s s1 h =>
    rcases ho with ho | ho <;> cases ho
    exact ((stops_deliver ..).run s _ _ h).2
  | serial e s e2 s2 o h hv hn ih => rw [ih ho, (C68_restartable acc pf _ _ _ _ h).1]
  | double e s e2 s2 o h hv hn ih => rw [ih ho, (C68_restartable acc pf _ _ _ _ h).1]
  | shutdown e s e2 s2 h hv =>
    rcases ho with ho | ho <;> cases ho
    exact (C68_restartable acc pf _ _ _ _ h).1

namespace ModeP
/-- How an event ended. -/
def endsIn : Outcome → Nat × BitVec 32
  | .done s => (0, s.r.eip)
  | .shutdown _ => (1, 0#32)
  | .abort _ => (2, 0#32)
  | .outOfFuel => (3, 0#32)
end ModeP
open ModeP

-- An invalid opcode is delivered through the IDT; with an IDT of limit 0 the same event ends in a shutdown.
example : endsIn (exec (fun _ _ _ _ _ => true) (fun _ => (0#16, 0#32)) (.event .exn 6 0#16 0#32) ⟨kernel, tables⟩) = (0, 0x1234#32) := by
  decide +kernel
example : endsIn (exec (fun _ _ _ _ _ => true) (fun _ => (0#16, 0#32)) (.event .exn 6 0#16 0#32)
    ⟨{ kernel with idtLimit := 0#32 }, tables⟩) = (1, 0#32) := by
  decide +kernel

end Verif.Seg
