import Verif.Props.Threads
/-
C43: snapshots taken or restored while other threads run.
-/
namespace Verif.Threads

/-- Nobody else can be past the entry of its call: the snapshot flag is held by thread `i`. -/
def OthersOut (s : St) (i : Nat) : Prop :=
  ∀ j, j ≠ i → s.cl j = .idle ∨ (∃ b, s.cl j = .a0 b) ∨ s.cl j = .r0 ∨ s.cl j = .n0 ∨ s.cl j = .n1

theorem othersOut_set {s : St} {i : Nat} (h : OthersOut s i) (c : Cl) : OthersOut (setCl s i c) i := by
  intro j hj; rw [setCl_other _ _ _ _ hj]; exact h j hj

/-- A step of another thread: it stays at the entry of its call and touches nothing. -/
theorem other_step {s : St} {i j : Nat} (h : OthersOut s i) (hs : s.saving = true) (hj : j ≠ i) :
    OthersOut (clStep s j) i ∧ (clStep s j).saving = true ∧ (clStep s j).flg = s.flg ∧ (clStep s j).sus = s.sus ∧
    (clStep s j).thr = s.thr ∧ (clStep s j).int = s.int ∧ (clStep s j).id = s.id ∧ (clStep s j).pc = s.pc ∧
    (clStep s j).guest = s.guest ∧ (clStep s j).cl i = s.cl i := by
  have same : OthersOut s i ∧ s.saving = true ∧ s.flg = s.flg ∧ s.sus = s.sus ∧ s.thr = s.thr ∧ s.int = s.int ∧ s.id = s.id ∧
      s.pc = s.pc ∧ s.guest = s.guest ∧ s.cl i = s.cl i := ⟨h, hs, rfl, rfl, rfl, rfl, rfl, rfl, rfl, rfl⟩
  have h1 : clStep s j = s ∨ clStep s j = setCl s j .n1 := by
    rcases h j hj with hc | ⟨b, hc⟩ | hc | hc | hc <;> simp [clStep, hc, hs]
  rcases h1 with e | e <;> rw [e]
  · exact same
  · refine ⟨?_, hs, rfl, rfl, rfl, rfl, rfl, rfl, rfl, setCl_other _ _ _ _ (Ne.symm hj)⟩
    intro k hk
    by_cases hkj : k = j
    · subst hkj; rw [setCl_self]; exact .inr (.inr (.inr (.inr rfl)))
    · rw [setCl_other _ _ _ _ hkj]; exact h k hk

theorem other_call {s : St} {i j : Nat} (h : OthersOut s i) (hi : s.cl i ≠ .idle) (op : Op) :
    OthersOut (step s (.call j op)) i ∧ (step s (.call j op)).cl i = s.cl i ∧
    ∃ c, step s (.call j op) = { s with cl := c } := by
  simp only [step]
  split
  · rename_i hj
    have hji : j ≠ i := fun e => hi (e ▸ hj)
    refine ⟨?_, setCl_other _ _ _ _ (Ne.symm hji), _, rfl⟩
    intro k hk
    by_cases hkj : k = j
    · subst hkj; rw [setCl_self]
      cases op with
      | suspend b => exact .inr (.inl ⟨b, rfl⟩)
      | resume => exact .inr (.inr (.inl rfl))
      | snapshot => exact .inr (.inr (.inr (.inl rfl)))
    · rw [setCl_other _ _ _ _ hkj]; exact h k hk
  · exact ⟨h, rfl, s.cl, rfl⟩

/-! ### a cpu that is already suspended -/

/-- The cpu is suspended: a request is in force, cpu_is_suspended is true, and the cpu thread is blocked in
cpu_run or has returned from it. -/
def Suspended (s : St) : Prop := s.flg = true ∧ s.sus = true ∧ ((s.pc = .s4 ∧ s.id = true) ∨ (s.pc = .out ∧ s.id = false))

/-- Steps left of a snapshot of a suspended cpu. -/
def left : Cl → Option Nat
  | .n2 => some 7
  | .n4 => some 6
  | .n5 true => some 5
  | .n6 true _ => some 4
  | .n9 true _ => some 3
  | .n10 true _ => some 2
  | .n11 true _ => some 1
  | .direct => some 1
  | .n15 => some 0
  | _ => none

structure Snap (s : St) (i k : Nat) : Prop where
  flg : s.flg = true
  sus : s.sus = true
  pc : (s.pc = .s4 ∧ s.id = true) ∨ ((s.pc = .out ∨ s.pc = .c0 ∨ s.pc = .c1) ∧ s.id = false)
  saving : s.saving = true
  at_ : ∃ m, left (s.cl i) = some m ∧ m ≤ k
  others : OthersOut s i

theorem snap_ne {s : St} {i k : Nat} (h : Snap s i k) : s.cl i ≠ .idle := by
  obtain ⟨m, hm, -⟩ := h.at_
  intro e; rw [e] at hm; cases hm

/-- Every action of anybody but thread `i` changes nothing that matters. -/
theorem snap_step {s : St} {i k : Nat} (h : Snap s i k) (a : Act) (ha : a ≠ .adv i) : Snap (step s a) i k ∧ (step s a).guest = s.guest := by
  have hpc : s.pc ≠ .run := by rcases h.pc with ⟨hp, -⟩ | ⟨hp | hp | hp, -⟩ <;> rw [hp] <;> simp
  cases a with
  | guest => simp only [step]; rw [if_neg hpc]; exact ⟨h, rfl⟩
  | poll => simp only [step]; rw [if_neg (fun e => hpc e.1)]; exact ⟨h, rfl⟩
  | leave => simp only [step]; rw [if_neg hpc]; exact ⟨h, rfl⟩
  | leaveHalted => simp only [step]; rw [if_neg hpc]; exact ⟨h, rfl⟩
  | callRun =>
    simp only [step]
    split
    · rename_i hp
      refine ⟨⟨h.flg, h.sus, .inr ⟨.inr (.inl rfl), ?_⟩, h.saving, h.at_, h.others⟩, rfl⟩
      rcases h.pc with ⟨hp', -⟩ | ⟨-, hid⟩
      · rw [hp] at hp'; cases hp'
      · exact hid
    · exact ⟨h, rfl⟩
  | cpu =>
    simp only [step, cpuStep]
    rcases h.pc with ⟨hp, hid⟩ | ⟨hp | hp | hp, hid⟩ <;> rw [hp] <;> dsimp only
    · rw [if_pos h.flg]; exact ⟨h, rfl⟩
    · exact ⟨h, rfl⟩
    · rw [if_pos h.sus]; exact ⟨⟨h.flg, h.sus, .inr ⟨.inr (.inr rfl), hid⟩, h.saving, h.at_, h.others⟩, rfl⟩
    · rw [if_pos h.flg]; exact ⟨⟨h.flg, h.sus, .inr ⟨.inl rfl, hid⟩, h.saving, h.at_, h.others⟩, rfl⟩
  | call j op =>
    obtain ⟨h1, h2, c, h3⟩ := other_call (j := j) h.others (snap_ne h) op
    rw [h3] at h1 h2 ⊢
    exact ⟨⟨h.flg, h.sus, h.pc, h.saving, by rw [h2]; exact h.at_, h1⟩, rfl⟩
  | adv j =>
    have hj : j ≠ i := fun e => ha (by rw [e])
    obtain ⟨g1, g2, g3, g4, g5, g6, g7, g8, g9, g10⟩ := other_step h.others h.saving hj
    simp only [step]
    refine ⟨⟨by rw [g3]; exact h.flg, by rw [g4]; exact h.sus, by rw [g8, g7]; exact h.pc, g2, by rw [g10]; exact h.at_, g1⟩, g9⟩

/-- A step of thread `i`: one step less, or done. -/
theorem snap_adv {s : St} {i k : Nat} (h : Snap s i k) :
    (step s (.adv i)).guest = s.guest ∧ (Snap (step s (.adv i)) i (k - 1) ∨ (step s (.adv i)).cl i = .idle) ∧
    (k = 0 → (step s (.adv i)).cl i = .idle) := by
  obtain ⟨h1, h2, h3, h4, ⟨m, hm, hk⟩, h6⟩ := h
  have mk : ∀ c m', left c = some m' → m' ≤ k - 1 → Snap (setCl s i c) i (k - 1) := fun c m' e hm' =>
    ⟨h1, h2, h3, h4, ⟨m', by rw [setCl_self]; exact e, hm'⟩, othersOut_set h6 c⟩
  simp only [step, clStep]
  generalize hc : s.cl i = c at hm
  cases c with
  | n2 =>
    simp only [left, Option.some.injEq] at hm
    dsimp only
    split
    · exact ⟨rfl, .inl (mk _ 6 rfl (by omega)), fun e => by omega⟩
    · exact ⟨rfl, .inl (mk _ 1 rfl (by omega)), fun e => by omega⟩
  | n4 =>
    simp only [left, Option.some.injEq] at hm
    dsimp only
    rw [h1]
    exact ⟨rfl, .inl (mk _ 5 rfl (by omega)), fun e => by omega⟩
  | n5 f =>
    cases f with
    | false => cases hm
    | true =>
      simp only [left, Option.some.injEq] at hm
      exact ⟨rfl, .inl (mk _ 4 rfl (by omega)), fun e => by omega⟩
  | n6 f t =>
    cases f with
    | false => cases hm
    | true =>
      simp only [left, Option.some.injEq] at hm
      exact ⟨rfl, .inl (mk _ 3 rfl (by omega)), fun e => by omega⟩
  | n9 f t =>
    cases f with
    | false => cases hm
    | true =>
      simp only [left, Option.some.injEq] at hm
      dsimp only
      rw [if_pos h2]
      exact ⟨rfl, .inl (mk _ 2 rfl (by omega)), fun e => by omega⟩
  | n10 f t =>
    cases f with
    | false => cases hm
    | true =>
      simp only [left, Option.some.injEq] at hm
      exact ⟨rfl, .inl (mk _ 1 rfl (by omega)), fun e => by omega⟩
  | n11 f t =>
    cases f with
    | false => cases hm
    | true =>
      simp only [left, Option.some.injEq] at hm
      exact ⟨rfl, .inl (mk _ 0 rfl (by omega)), fun e => by omega⟩
  | direct =>
    simp only [left, Option.some.injEq] at hm
    exact ⟨rfl, .inl (mk _ 0 rfl (by omega)), fun e => by omega⟩
  | n15 => exact ⟨rfl, .inr (setCl_self _ _ _), fun _ => setCl_self _ _ _⟩
  | _ => cases hm

/-- Thread `i` is busy throughout the history. -/
def BusyDuring (s : St) (i : Nat) (as : List Act) : Prop := ∀ p, p <+: as → (run s p).cl i ≠ .idle

theorem snap_run {i : Nat} (as : List Act) : ∀ {s : St} {k : Nat}, Snap s i k →
    (BusyDuring s i as → (run s as).guest = s.guest ∧ ¬ Executing (run s as)) ∧
    (k < as.count (.adv i) → ∃ p, p <+: as ∧ (run s p).cl i = .idle) := by
  induction as with
  | nil =>
    intro s k h
    refine ⟨fun _ => ⟨rfl, ?_⟩, fun hh => by simp at hh⟩
    rcases h.pc with ⟨hp, -⟩ | ⟨hp | hp | hp, -⟩ <;> simp [Executing, run, hp]
  | cons a as ih =>
    intro s k h
    by_cases ha : a = .adv i
    · subst ha
      obtain ⟨hg, hn, hz⟩ := snap_adv h
      constructor
      · intro hb
        rcases hn with hn | hn
        · have := (ih hn).1 (fun p hp => hb (.adv i :: p) ((List.prefix_cons_inj _).2 hp))
          rw [run_cons]
          exact ⟨this.1.trans hg, this.2⟩
        · exact absurd hn (hb [.adv i] ⟨as, rfl⟩)
      · intro hk
        rw [List.count_cons_self] at hk
        rcases hn with hn | hn
        · by_cases h0 : k = 0
          · exact ⟨[.adv i], ⟨as, rfl⟩, hz h0⟩
          · obtain ⟨p, hp, he⟩ := (ih hn).2 (by omega)
            exact ⟨.adv i :: p, (List.prefix_cons_inj _).2 hp, he⟩
        · exact ⟨[.adv i], ⟨as, rfl⟩, hn⟩
    · obtain ⟨hs, hg⟩ := snap_step h a ha
      constructor
      · intro hb
        have := (ih hs).1 (fun p hp => hb (a :: p) ((List.prefix_cons_inj _).2 hp))
        rw [run_cons]
        exact ⟨this.1.trans hg, this.2⟩
      · intro hk
        rw [List.count_cons_of_ne ha] at hk
        obtain ⟨p, hp, he⟩ := (ih hs).2 hk
        exact ⟨a :: p, (List.prefix_cons_inj _).2 hp, he⟩

/-- A call of the snapshot functions on a cpu that is suspended and that nobody else is calling: the call has
taken the snapshot flag. -/
theorem snap_start {s : St} (h : Suspended s) (hs : s.saving = false) (hi : ∀ j, s.cl j = .idle) (i : Nat) :
    Snap (run s [.call i .snapshot, .adv i]) i 7 := by
  have e : run s [.call i .snapshot, .adv i] = setCl { setCl s i .n0 with saving := true } i .n2 := by
    simp only [run, List.foldl, step, hi i, if_true, entry, clStep, setCl_self]
    have : (setCl s i .n0).saving = false := hs
    rw [this]; rfl
  rw [e]
  obtain ⟨h1, h2, h3⟩ := h
  refine ⟨h1, h2, ?_, rfl, ⟨7, by rw [setCl_self]; rfl, by omega⟩, ?_⟩
  · rcases h3 with h3 | ⟨h3, h4⟩
    · exact .inl h3
    · exact .inr ⟨.inl h3, h4⟩
  · intro j hj
    rw [setCl_other _ _ _ _ hj]
    exact .inl (by show (setCl s i .n0).cl j = _; rw [setCl_other _ _ _ _ hj]; exact hi j)

/-- C43: the cpu is suspended. Whatever the other threads do from then on (including cpu_resume, more snapshots and
cpu_run), the guest executes nothing before the call returns, so that all of the snapshot is of one state. -/
theorem C43_suspended_atomic_partial (s : St) (h : Suspended s) (hs : s.saving = false) (hi : ∀ j, s.cl j = .idle) (i : Nat)
    (as : List Act) (hb : BusyDuring (run s [.call i .snapshot, .adv i]) i as) :
    (run s ([.call i .snapshot, .adv i] ++ as)).guest = s.guest ∧ ¬ Executing (run s ([.call i .snapshot, .adv i] ++ as)) := by
  have hst := snap_start h hs hi i
  have := (snap_run as hst).1 hb
  rw [run_append]
  refine ⟨this.1.trans ?_, this.2⟩
  have hc := hi i
  simp [run, step, hc, entry, clStep, setCl, hs]

/-- C43: and the call returns, after at most eight more steps of its thread, whatever the others do. -/
theorem C43_suspended_returns_partial (s : St) (h : Suspended s) (hs : s.saving = false) (hi : ∀ j, s.cl j = .idle) (i : Nat)
    (as : List Act) (hn : 8 ≤ as.count (.adv i)) :
    ∃ p, p <+: as ∧ (run s ([.call i .snapshot, .adv i] ++ p)).cl i = .idle := by
  obtain ⟨p, hp, he⟩ := (snap_run as (snap_start h hs hi i)).2 (by omega)
  exact ⟨p, hp, by rw [run_append]; exact he⟩

/-- Reachable states that meet the hypotheses: blocked in cpu_run, and returned from it. -/
example : let s := run init [.callRun, .cpu, .cpu, .guest, .call 0 (.suspend false), .adv 0, .adv 0, .adv 0, .adv 0, .poll, .cpu, .cpu]
    Suspended s ∧ s.saving = false := ⟨⟨rfl, rfl, .inl ⟨rfl, rfl⟩⟩, rfl⟩
example : let s := run init [.callRun, .cpu, .cpu, .guest, .call 0 (.suspend true), .adv 0, .adv 0, .adv 0, .adv 0, .poll, .cpu, .cpu, .cpu, .cpu, .cpu]
    Suspended s ∧ s.saving = false := ⟨⟨rfl, rfl, .inr ⟨rfl, rfl⟩⟩, rfl⟩
/-- And the snapshot of the first does complete. -/
example : (run (run init [.callRun, .cpu, .cpu, .guest, .call 0 (.suspend false), .adv 0, .adv 0, .adv 0, .adv 0, .poll, .cpu, .cpu])
    ([.call 0 .snapshot, .adv 0] ++ List.replicate 8 (.adv 0))).cl 0 = .idle := rfl

/-- C43: a cpu that is not being run: the call returns after four steps of its thread, and the guest executes
nothing meanwhile unless cpu_run is called. -/
theorem C43_stopped_partial (s : St) (hp : s.pc = .out) (hid : s.id = false) (hs : s.saving = false) (i : Nat) (hi : s.cl i = .idle) :
    (run s [.call i .snapshot, .adv i, .adv i, .adv i, .adv i]).cl i = .idle ∧
    Saving (run s [.call i .snapshot, .adv i, .adv i]) i ∧
    (∀ as, .callRun ∉ as → (run s as).guest = s.guest ∧ ¬ Executing (run s as)) := by
  refine ⟨by simp [run, step, hi, entry, clStep, setCl, hs, hid], .inl (by simp [run, step, hi, entry, clStep, setCl, hs, hid]), ?_⟩
  have key : ∀ (as : List Act) (s : St), s.pc = .out → .callRun ∉ as → (run s as).guest = s.guest ∧ (run s as).pc = .out := by
    intro as
    induction as with
    | nil => intro s hp _; exact ⟨rfl, hp⟩
    | cons a as ih =>
      intro s hp ha
      have ha' : Act.callRun ∉ as := fun h => ha (List.mem_cons_of_mem _ h)
      have hne : a ≠ .callRun := fun h => ha (by rw [h]; exact List.mem_cons_self)
      have hst : (step s a).pc = .out ∧ (step s a).guest = s.guest := by
        cases a with
        | callRun => exact absurd rfl hne
        | guest => simp [step, hp]
        | poll => simp [step, hp]
        | leave => simp [step, hp]
        | leaveHalted => simp [step, hp]
        | cpu => simp [step, cpuStep, hp]
        | call j op => simp only [step]; split <;> exact ⟨hp, rfl⟩
        | adv j =>
          simp only [step, clStep]
          repeat' split
          all_goals exact ⟨hp, rfl⟩
      have := ih (step s a) hst.1 ha'
      rw [run_cons]
      exact ⟨this.1.trans hst.2, this.2⟩
  intro as ha
  have := key as s hp ha
  exact ⟨this.1, by rw [Executing, this.2]; simp⟩

example : init.pc = .out ∧ init.id = false ∧ init.saving = false ∧ init.cl 3 = .idle := ⟨rfl, rfl, rfl, rfl⟩

/-! ### a running cpu -/

/-- Where a snapshot of a running cpu can be. -/
def Stuck (s : St) (i : Nat) : Prop := s.saving = true ∧ OthersOut s i ∧
  ((s.cl i = .n4 ∧ s.flg = false) ∨ s.cl i = .n5 false ∨ (∃ t, s.cl i = .n6 false t) ∨ (∃ t, s.cl i = .n7 false t) ∨
   (∃ t, s.cl i = .n8 false t) ∨ (∃ t, s.cl i = .n9 false t) ∨ (∃ t, s.cl i = .n10 false t) ∨ (∃ t, s.cl i = .n11 false t) ∨ s.cl i = .n12)

theorem cpu_keeps (s : St) : (cpuStep s).cl = s.cl ∧ (cpuStep s).saving = s.saving ∧ (cpuStep s).flg = s.flg := by
  unfold cpuStep
  repeat' split
  all_goals exact ⟨rfl, rfl, rfl⟩

theorem stuck_step {s : St} {i : Nat} (h : Stuck s i) (a : Act) : Stuck (step s a) i := by
  have hne : s.cl i ≠ .idle := by
    rcases h.2.2 with ⟨h, -⟩ | h | ⟨t, h⟩ | ⟨t, h⟩ | ⟨t, h⟩ | ⟨t, h⟩ | ⟨t, h⟩ | ⟨t, h⟩ | h <;> rw [h] <;> simp
  cases a with
  | guest => simp only [step]; split <;> exact h
  | poll => simp only [step]; split <;> exact h
  | leave => simp only [step]; split <;> exact h
  | leaveHalted => simp only [step]; split <;> exact h
  | callRun => simp only [step]; split <;> exact h
  | cpu =>
    obtain ⟨h1, h2, h3⟩ := cpu_keeps s
    simp only [step, Stuck, OthersOut, h1, h2, h3]
    exact h
  | call j op =>
    obtain ⟨h1, h2, c, h3⟩ := other_call (j := j) h.2.1 hne op
    refine ⟨by rw [h3]; exact h.1, h1, ?_⟩
    have hf : (step s (.call j op)).flg = s.flg := by rw [h3]
    rw [h2, hf]
    exact h.2.2
  | adv j =>
    by_cases hj : j = i
    · subst hj
      obtain ⟨h1, h2, h3⟩ := h
      simp only [step, clStep]
      rcases h3 with ⟨h, hf⟩ | h | ⟨t, h⟩ | ⟨t, h⟩ | ⟨t, h⟩ | ⟨t, h⟩ | ⟨t, h⟩ | ⟨t, h⟩ | h <;> rw [h] <;> dsimp only
      · rw [hf]; exact ⟨h1, othersOut_set h2 _, .inr (.inl (setCl_self _ _ _))⟩
      · exact ⟨h1, othersOut_set h2 _, .inr (.inr (.inl ⟨_, setCl_self _ _ _⟩))⟩
      · exact ⟨h1, othersOut_set (s := { s with thr := false }) h2 _, .inr (.inr (.inr (.inl ⟨_, setCl_self _ _ _⟩)))⟩
      · exact ⟨h1, othersOut_set (s := { s with flg := true }) h2 _, .inr (.inr (.inr (.inr (.inl ⟨_, setCl_self _ _ _⟩))))⟩
      · exact ⟨h1, othersOut_set (s := { s with int := true }) h2 _, .inr (.inr (.inr (.inr (.inr (.inl ⟨_, setCl_self _ _ _⟩)))))⟩
      · split
        · exact ⟨h1, othersOut_set h2 _, .inr (.inr (.inr (.inr (.inr (.inr (.inl ⟨_, setCl_self _ _ _⟩))))))⟩
        · exact ⟨h1, h2, .inr (.inr (.inr (.inr (.inr (.inl ⟨_, h⟩)))))⟩
      · exact ⟨h1, othersOut_set h2 _, .inr (.inr (.inr (.inr (.inr (.inr (.inr (.inl ⟨_, setCl_self _ _ _⟩)))))))⟩
      · exact ⟨h1, othersOut_set (s := { s with thr := t }) h2 _, .inr (.inr (.inr (.inr (.inr (.inr (.inr (.inr (setCl_self _ _ _))))))))⟩
      · rw [if_pos h1]; exact ⟨h1, h2, .inr (.inr (.inr (.inr (.inr (.inr (.inr (.inr h)))))))⟩
    · obtain ⟨g1, g2, g3, -, -, -, -, -, -, g10⟩ := other_step h.2.1 h.1 hj
      simp only [step]
      refine ⟨g2, g1, ?_⟩
      rw [g10, g3]
      exact h.2.2

theorem stuck_run {s : St} {i : Nat} (h : Stuck s i) (as : List Act) : Stuck (run s as) i := by
  induction as generalizing s with
  | nil => exact h
  | cons a as ih => exact ih (stuck_step h a)

/-- C43 fails: a snapshot of a cpu that is running (and not asked to suspend), from another thread. In no
continuation whatever does the call return: having suspended the cpu it calls cpu_resume, which waits for the
snapshot flag that the call itself holds. -/
theorem C43_running_never_returns_violation (s : St) (hid : s.id = true) (hf : s.flg = false) (hs : s.saving = false)
    (hi : ∀ j, s.cl j = .idle) (i : Nat) (as : List Act) :
    (run s ([.call i .snapshot, .adv i, .adv i] ++ as)).cl i ≠ .idle := by
  have h0 : Stuck (run s [.call i .snapshot, .adv i, .adv i]) i := by
    refine ⟨by simp [run, step, hi i, entry, clStep, setCl, hs, hid], ?_, .inl ⟨by simp [run, step, hi i, entry, clStep, setCl, hs, hid], by simp [run, step, hi i, entry, clStep, setCl, hs, hid, hf]⟩⟩
    intro j hj
    exact .inl (by simp [run, step, hi i, entry, clStep, setCl, hs, hid, hj, hi j])
  have := stuck_run h0 as
  rw [run_append]
  intro e
  rcases this.2.2 with ⟨h, -⟩ | h | ⟨t, h⟩ | ⟨t, h⟩ | ⟨t, h⟩ | ⟨t, h⟩ | ⟨t, h⟩ | ⟨t, h⟩ | h <;> rw [e] at h <;> cases h

/-- The most ordinary case: cpu_run has been called and the guest executes. -/
example : let s := run init [.callRun, .cpu, .cpu, .guest]
    s.id = true ∧ s.flg = false ∧ s.saving = false ∧ Executing s := ⟨rfl, rfl, rfl, rfl⟩

/-- One client thread suspends, resumes, suspends again and takes a snapshot, as it may. -/
def torn : List Act :=
  [.callRun, .cpu, .cpu, .call 0 (.suspend false), .adv 0, .adv 0, .adv 0, .adv 0, .poll, .cpu, .cpu,
   .call 0 .resume, .adv 0, .adv 0, .cpu,
   .call 0 (.suspend false), .adv 0, .adv 0, .adv 0, .adv 0,
   .call 0 .snapshot, .adv 0, .adv 0, .adv 0, .adv 0, .adv 0, .adv 0]

/-- C43 fails: the snapshot is being written while the guest executes, any number of instructions. -/
theorem C43_torn_violation (n : Nat) :
    Saving (run init torn) 0 ∧ Saving (run init (torn ++ [.cpu, .cpu] ++ List.replicate n .guest)) 0 ∧
    (run init (torn ++ [.cpu, .cpu] ++ List.replicate n .guest)).guest = (run init torn).guest + n := by
  have key : ∀ (n : Nat) (s : St), s.pc = .run → run s (List.replicate n .guest) = { s with guest := s.guest + n } := by
    intro n
    induction n with
    | zero => intro s _; rfl
    | succ n ih =>
      intro s hp
      rw [List.replicate_succ, run_cons]
      have : step s .guest = { s with guest := s.guest + 1 } := by simp only [step]; rw [if_pos hp]
      rw [this, ih { s with guest := s.guest + 1 } hp]
      show ({ s with guest := s.guest + 1 + n } : St) = _
      rw [Nat.add_assoc, Nat.add_comm 1 n]
  refine ⟨.inr ⟨true, false, rfl⟩, ?_, ?_⟩
  · rw [run_append, key n _ rfl]; exact .inr ⟨true, false, rfl⟩
  · rw [run_append, key n _ rfl]; rfl

/-- C43 fails: a snapshot that has waited for another one does not take the flag, so that two of them (one of which
may be restoring) run at the same time. -/
theorem C43_two_at_once_violation :
    let s := run init [.call 0 .snapshot, .adv 0, .call 1 .snapshot, .adv 1, .call 2 .snapshot, .adv 2, .adv 0, .adv 0, .adv 0,
      .adv 1, .adv 1, .adv 2, .adv 2]
    Saving s 1 ∧ Saving s 2 := ⟨.inl rfl, .inl rfl⟩

/-- C43 fails: cpu_run_until of a halted cpu returns without clearing the id of its thread.  Although nothing is executing, a snapshot that
another thread then asks for never returns. -/
theorem C43_halted_violation (as : List Act) :
    let s := run init [.callRun, .cpu, .cpu, .leaveHalted]
    ¬ Executing s ∧ s.pc = .out ∧ (∀ j, s.cl j = .idle) ∧ (run s ([.call 0 .snapshot, .adv 0, .adv 0] ++ as)).cl 0 ≠ .idle :=
  ⟨by simp [Executing, run, step, init, cpuStep], rfl, fun _ => rfl,
    C43_running_never_returns_violation _ rfl rfl rfl (fun _ => rfl) 0 as⟩

/-- The same call on a cpu that has returned in any other way completes. -/
example : (run init [.callRun, .cpu, .cpu, .leave, .cpu, .call 0 .snapshot, .adv 0, .adv 0, .adv 0, .adv 0]).cl 0 = .idle := rfl

end Verif.Threads
