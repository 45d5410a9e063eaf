import Verif.Model.Threads
/-
C43: snapshots from other threads. C44: suspend requests.
-/
namespace Verif.Threads

theorem run_append (s : St) (as bs : List Act) : run s (as ++ bs) = run (run s as) bs := List.foldl_append
theorem run_cons (s : St) (a : Act) (as : List Act) : run s (a :: as) = run (step s a) as := rfl

@[simp] theorem setCl_self (s : St) (i : Nat) (c : Cl) : (setCl s i c).cl i = c := if_pos rfl
@[simp] theorem setCl_other (s : St) (i j : Nat) (c : Cl) (h : j ≠ i) : (setCl s i c).cl j = s.cl j := if_neg h

/-- The guest is being executed: the cpu thread is in guest code. -/
def Executing (s : St) : Prop := s.pc = .run

/-- Thread `i` is reading or writing the cpu state for a snapshot. -/
def Saving (s : St) (i : Nat) : Prop := s.cl i = .direct ∨ ∃ f t, s.cl i = .n10 f t

/-- Calls to cpu_resume and the snapshot functions. -/
def OnlySuspends (as : List Act) : Prop := ∀ i op, .call i op ∈ as → ∃ b, op = .suspend b

/-! ### C44 -/

/-- Running freely: in guest code, no suspend requested or pending, no call in progress. -/
structure Free (s : St) : Prop where
  pc : s.pc = .run
  int : s.int = false
  sus : s.sus = false
  idle : ∀ i, s.cl i = .idle

/-- What holds after that as long as only cpu_suspend is called. -/
structure Q (s : St) : Prop where
  late : s.pc ≠ .c2 ∧ s.pc ≠ .s5 ∧ s.pc ≠ .s7
  flg : (s.pc = .s1 ∨ s.pc = .s2 ∨ s.pc = .s3 ∨ s.pc = .s4 ∨ s.pc = .t1 ∨ s.int = true ∨ s.sus = true) → s.flg = true
  sus : (s.pc = .s2 ∨ s.pc = .s3 ∨ s.pc = .s4 ∨ s.pc = .t1 ∨ s.pc = .c1) → s.sus = true
  ops : ∀ i, s.cl i = .idle ∨ (∃ b, s.cl i = .a0 b) ∨ (∃ b, s.cl i = .a1 b) ∨ s.cl i = .a2 ∨ (s.cl i = .a3 ∧ s.flg = true)

/-- A suspend request is in force: the guest is stopped, or the request is pending. -/
def InForce (s : St) : Prop := s.flg = true ∧
  match s.pc with
  | .run | .c3 | .s1 => s.int = true
  | .s2 | .s3 | .s4 | .t1 | .c1 => s.sus = true
  | .t2 | .out | .c0 => s.sus = true ∨ s.int = true
  | .c2 | .s5 | .s7 => False

theorem q_free {s : St} (h : Free s) : Q s := by
  obtain ⟨h1, h2, h3, h4⟩ := h
  constructor
  · simp [h1]
  · simp [h1, h2, h3]
  · simp [h1]
  · intro i; exact .inl (h4 i)

theorem q_setCl {s : St} (h : Q s) (i : Nat) (c : Cl)
    (hc : c = .idle ∨ (∃ b, c = .a0 b) ∨ (∃ b, c = .a1 b) ∨ c = .a2 ∨ (c = .a3 ∧ s.flg = true)) : Q (setCl s i c) := by
  refine ⟨h.late, h.flg, h.sus, ?_⟩
  intro j
  by_cases hj : j = i
  · subst hj; rw [setCl_self]; exact hc
  · rw [setCl_other _ _ _ _ hj]; exact h.ops j

theorem q_cpu {s : St} (h : Q s) : Q (cpuStep s) := by
  obtain ⟨h1, h2, h3, h4⟩ := h
  unfold cpuStep
  cases hp : s.pc <;> simp only [hp] at h1 h2 h3 ⊢
  all_goals first
    | (simp at h1; done)
    | exact ⟨by rw [hp]; simp, by rw [hp]; simp_all, by rw [hp]; simp_all, h4⟩
    | skip
  all_goals cases hs : s.sus <;> cases hf : s.flg <;> cases ht : s.thr <;> cases hi : s.int <;> simp [hs, hf, hi] at h2 h3 <;>
    (constructor <;> simp_all)

theorem q_step {s : St} (h : Q s) (a : Act) (ha : ∀ i op, a = .call i op → ∃ b, op = .suspend b) : Q (step s a) := by
  cases a with
  | guest => simp only [step]; split
             · exact ⟨h.late, h.flg, h.sus, h.ops⟩
             · exact h
  | poll =>
    simp only [step]; split
    · rename_i hp
      have := h.flg (.inr (.inr (.inr (.inr (.inr (.inl hp.2))))))
      refine ⟨by simp, fun _ => this, by simp, h.ops⟩
    · exact h
  | leave =>
    simp only [step]; split
    · rename_i hp
      refine ⟨by simp, fun hh => h.flg ?_, by simp, h.ops⟩
      rcases hh with hh | hh | hh | hh | hh | hh
      · cases hh
      · cases hh
      · cases hh
      · cases hh
      · cases hh
      · exact .inr (.inr (.inr (.inr (.inr hh))))
    · exact h
  | leaveHalted =>
    simp only [step]; split
    · rename_i hp
      refine ⟨by simp, fun hh => h.flg ?_, by simp, h.ops⟩
      rcases hh with hh | hh | hh | hh | hh | hh
      · cases hh
      · cases hh
      · cases hh
      · cases hh
      · cases hh
      · exact .inr (.inr (.inr (.inr (.inr hh))))
    · exact h
  | callRun =>
    simp only [step]; split
    · rename_i hp
      refine ⟨by simp, fun hh => h.flg ?_, by simp, h.ops⟩
      rcases hh with hh | hh | hh | hh | hh | hh
      · cases hh
      · cases hh
      · cases hh
      · cases hh
      · cases hh
      · exact .inr (.inr (.inr (.inr (.inr hh))))
    · exact h
  | cpu => exact q_cpu h
  | call i op =>
    simp only [step]; split
    · obtain ⟨b, rfl⟩ := ha i op rfl
      exact q_setCl h i _ (.inr (.inl ⟨b, rfl⟩))
    · exact h
  | adv i =>
    simp only [step, clStep]
    rcases h.ops i with hc | ⟨b, hc⟩ | ⟨b, hc⟩ | hc | ⟨hc, hf⟩ <;> rw [hc] <;> dsimp only
    · exact h
    · split
      · exact h
      · exact q_setCl h i _ (.inr (.inr (.inl ⟨b, rfl⟩)))
    · exact q_setCl (s := { s with thr := b }) ⟨h.late, h.flg, h.sus, h.ops⟩ i _ (.inr (.inr (.inr (.inl rfl))))
    · exact q_setCl (s := { s with flg := true }) ⟨h.late, fun _ => rfl, h.sus, fun j => by
        rcases h.ops j with hj | hj | hj | hj | ⟨hj, -⟩
        · exact .inl hj
        · exact .inr (.inl hj)
        · exact .inr (.inr (.inl hj))
        · exact .inr (.inr (.inr (.inl hj)))
        · exact .inr (.inr (.inr (.inr ⟨hj, rfl⟩)))⟩ i _ (.inr (.inr (.inr (.inr ⟨rfl, rfl⟩))))
    · exact q_setCl (s := { s with int := true }) ⟨h.late, fun _ => hf, h.sus, h.ops⟩ i _ (.inl rfl)

theorem q_run {s : St} (h : Q s) (as : List Act) (ha : OnlySuspends as) : Q (run s as) := by
  induction as generalizing s with
  | nil => exact h
  | cons a as ih =>
    refine ih (q_step h a ?_) (fun i op hm => ha i op (List.mem_cons_of_mem _ hm))
    intro i op e
    exact ha i op (by rw [e]; exact List.mem_cons_self)

/-- The last step of cpu_suspend puts the request in force. -/
theorem inForce_a3 {s : St} (h : Q s) (i : Nat) (hc : s.cl i = .a3) : InForce (step s (.adv i)) := by
  have hf : s.flg = true := by
    rcases h.ops i with h' | ⟨b, h'⟩ | ⟨b, h'⟩ | h' | ⟨h', hf⟩ <;> rw [hc] at h' <;> first | exact hf | cases h'
  simp only [step, clStep, hc]
  refine ⟨hf, ?_⟩
  show (match s.pc with
    | .run | .c3 | .s1 => true = true
    | .s2 | .s3 | .s4 | .t1 | .c1 => s.sus = true
    | .t2 | .out | .c0 => s.sus = true ∨ true = true
    | .c2 | .s5 | .s7 => False)
  have hl := h.late
  have hs := h.sus
  cases hp : s.pc <;> simp_all

/-- A request in force stays in force whatever happens, as long as only cpu_suspend is called. -/
theorem inForce_step {s : St} (hq : Q s) (h : InForce s) (a : Act) (ha : ∀ i op, a = .call i op → ∃ b, op = .suspend b) : InForce (step s a) := by
  obtain ⟨hf, h⟩ := h
  cases a with
  | guest => simp only [step]; split
             · exact ⟨hf, h⟩
             · exact ⟨hf, h⟩
  | poll =>
    simp only [step]; split
    · rename_i hp; exact ⟨hf, hp.2⟩
    · exact ⟨hf, h⟩
  | leave =>
    simp only [step]; split
    · rename_i hp; rw [hp] at h; exact ⟨hf, .inr h⟩
    · exact ⟨hf, h⟩
  | leaveHalted =>
    simp only [step]; split
    · rename_i hp; rw [hp] at h; exact ⟨hf, .inr h⟩
    · exact ⟨hf, h⟩
  | callRun =>
    simp only [step]; split
    · rename_i hp; rw [hp] at h; exact ⟨hf, h⟩
    · exact ⟨hf, h⟩
  | cpu =>
    simp only [step, cpuStep]
    cases hp : s.pc <;> simp only [hp] at h ⊢
    all_goals first
      | exact h.elim
      | (refine ⟨hf, ?_⟩; rw [hp]; exact h)
      | skip
    all_goals cases hs : s.sus <;> cases ht : s.thr <;> cases hi : s.int <;> simp_all [InForce]
  | call i op =>
    simp only [step]; split
    · exact ⟨hf, h⟩
    · exact ⟨hf, h⟩
  | adv i =>
    simp only [step, clStep]
    rcases hq.ops i with hc | ⟨b, hc⟩ | ⟨b, hc⟩ | hc | ⟨hc, hf'⟩ <;> rw [hc] <;> dsimp only
    · exact ⟨hf, h⟩
    · split
      · exact ⟨hf, h⟩
      · exact ⟨hf, h⟩
    · exact ⟨hf, h⟩
    · exact ⟨rfl, h⟩
    · refine ⟨hf, ?_⟩
      show (match s.pc with
        | .run | .c3 | .s1 => true = true
        | .s2 | .s3 | .s4 | .t1 | .c1 => s.sus = true
        | .t2 | .out | .c0 => s.sus = true ∨ true = true
        | .c2 | .s5 | .s7 => False)
      cases hp : s.pc <;> simp_all

theorem onlySuspends_cons {a : Act} {as : List Act} (h : OnlySuspends (a :: as)) :
    (∀ i op, a = .call i op → ∃ b, op = .suspend b) ∧ OnlySuspends as :=
  ⟨fun i op e => h i op (by rw [e]; exact List.mem_cons_self), fun i op hm => h i op (List.mem_cons_of_mem _ hm)⟩

theorem inForce_run {s : St} (hq : Q s) (h : InForce s) (as : List Act) (ha : OnlySuspends as) : InForce (run s as) := by
  induction as generalizing s with
  | nil => exact h
  | cons a as ih =>
    have := onlySuspends_cons ha
    exact ih (q_step hq a this.1) (inForce_step hq h a this.1) this.2

/-- The guest is stopped and cpu_run, if called, does not run it. -/
def Stopped (s : St) : Prop := s.flg = true ∧
  match s.pc with
  | .s1 => True
  | .s2 | .s3 | .s4 | .t1 | .c1 | .t2 | .out | .c0 => s.sus = true
  | _ => False

theorem stopped_step {s : St} (hq : Q s) (h : Stopped s) (a : Act) (ha : ∀ i op, a = .call i op → ∃ b, op = .suspend b) :
    Stopped (step s a) ∧ (step s a).guest = s.guest := by
  obtain ⟨hf, h⟩ := h
  cases a with
  | guest =>
    simp only [step]; split
    · rename_i hp; rw [hp] at h; exact h.elim
    · exact ⟨⟨hf, h⟩, rfl⟩
  | poll =>
    simp only [step]; split
    · rename_i hp; rw [hp.1] at h; exact h.elim
    · exact ⟨⟨hf, h⟩, rfl⟩
  | leave =>
    simp only [step]; split
    · rename_i hp; rw [hp] at h; exact h.elim
    · exact ⟨⟨hf, h⟩, rfl⟩
  | leaveHalted =>
    simp only [step]; split
    · rename_i hp; rw [hp] at h; exact h.elim
    · exact ⟨⟨hf, h⟩, rfl⟩
  | callRun =>
    simp only [step]; split
    · rename_i hp; rw [hp] at h; exact ⟨⟨hf, h⟩, rfl⟩
    · exact ⟨⟨hf, h⟩, rfl⟩
  | cpu =>
    simp only [step, cpuStep]
    cases hp : s.pc <;> simp only [hp] at h ⊢
    all_goals first
      | exact h.elim
      | (refine ⟨⟨hf, ?_⟩, trivial⟩; rw [hp]; exact h)
      | skip
    all_goals cases hs : s.sus <;> cases ht : s.thr <;> simp_all [Stopped]
  | call i op =>
    simp only [step]; split
    · exact ⟨⟨hf, h⟩, rfl⟩
    · exact ⟨⟨hf, h⟩, rfl⟩
  | adv i =>
    simp only [step, clStep]
    rcases hq.ops i with hc | ⟨b, hc⟩ | ⟨b, hc⟩ | hc | ⟨hc, hf'⟩ <;> rw [hc] <;> dsimp only
    · exact ⟨⟨hf, h⟩, rfl⟩
    · split
      · exact ⟨⟨hf, h⟩, rfl⟩
      · exact ⟨⟨hf, h⟩, rfl⟩
    · exact ⟨⟨hf, h⟩, rfl⟩
    · exact ⟨⟨rfl, h⟩, rfl⟩
    · exact ⟨⟨hf, h⟩, rfl⟩

theorem stopped_run {s : St} (hq : Q s) (h : Stopped s) (as : List Act) (ha : OnlySuspends as) : (run s as).guest = s.guest := by
  induction as generalizing s with
  | nil => rfl
  | cons a as ih =>
    have ho := onlySuspends_cons ha
    have := stopped_step hq h a ho.1
    rw [run_cons, ih (q_step hq a ho.1) this.1 ho.2, this.2]

/-- The call of thread `i` has completed somewhere in the history. -/
theorem suspend_completes {s : St} (hq : Q s) (i : Nat) (as : List Act) (ha : OnlySuspends as)
    (hb : ∃ b, s.cl i = .a0 b ∨ s.cl i = .a1 b ∨ s.cl i = .a2 ∨ s.cl i = .a3) (hd : (run s as).cl i = .idle) : InForce (run s as) := by
  induction as generalizing s with
  | nil =>
    obtain ⟨b, h | h | h | h⟩ := hb <;> simp [run, h] at hd
  | cons a as ih =>
    have ho := onlySuspends_cons ha
    have hq' := q_step hq a ho.1
    rw [run_cons] at hd ⊢
    by_cases h3 : s.cl i = .a3 ∧ a = .adv i
    · obtain ⟨h3, rfl⟩ := h3
      exact inForce_run hq' (inForce_a3 hq i h3) as ho.2
    · refine ih hq' ho.2 ?_ hd
      obtain ⟨b, hb⟩ := hb
      have hne : s.cl i ≠ .idle := by
        rcases hb with h | h | h | h <;> rw [h] <;> simp
      cases a with
      | guest => refine ⟨b, ?_⟩; simp only [step]; split <;> exact hb
      | poll => refine ⟨b, ?_⟩; simp only [step]; split <;> exact hb
      | leave => refine ⟨b, ?_⟩; simp only [step]; split <;> exact hb
      | leaveHalted => refine ⟨b, ?_⟩; simp only [step]; split <;> exact hb
      | callRun => refine ⟨b, ?_⟩; simp only [step]; split <;> exact hb
      | cpu =>
        refine ⟨b, ?_⟩
        have : (cpuStep s).cl = s.cl := by
          unfold cpuStep
          repeat' split
          all_goals rfl
        simp only [step, this]
        exact hb
      | call j op =>
        refine ⟨b, ?_⟩
        simp only [step]
        split
        · rename_i hj
          have : i ≠ j := fun e => hne (e ▸ hj)
          rw [setCl_other _ _ _ _ this]
          exact hb
        · exact hb
      | adv j =>
        by_cases hij : i = j
        · subst hij
          refine ⟨b, ?_⟩
          simp only [step, clStep]
          rcases hb with h | h | h | h
          · rw [h]; dsimp only; split
            · exact .inl h
            · rw [setCl_self]; exact .inr (.inl rfl)
          · rw [h]; dsimp only; rw [setCl_self]; exact .inr (.inr (.inl rfl))
          · rw [h]; dsimp only; rw [setCl_self]; exact .inr (.inr (.inr rfl))
          · exact absurd ⟨h, rfl⟩ h3
        · refine ⟨b, ?_⟩
          have : (clStep s j).cl i = s.cl i := by
            unfold clStep
            repeat' split
            all_goals first | rfl | exact setCl_other _ _ _ _ hij
          simp only [step, this]
          exact hb

/-- C44: cpu_suspend called while the guest runs freely. In every interleaving with other threads (which may
also call cpu_suspend), once the call has returned the guest is stopped at its next check for events and from
then on executes nothing, even if cpu_run is called again. Missing: the same for a cpu that has been resumed,
see C44_lost_suspend_violation. -/
theorem C44_suspend_stops_guest_partial (s : St) (h : Free s) (i : Nat) (b : Bool) (as : List Act) (ha : OnlySuspends as)
    (hd : (run s (.call i (.suspend b) :: as)).cl i = .idle) (bs : List Act) (hb : OnlySuspends bs)
    (t : St) (ht : t = run (run s (.call i (.suspend b) :: as)) bs) (he : Executing t) (cs : List Act) (hc : OnlySuspends cs) :
    (run t (.poll :: cs)).guest = t.guest := by
  have hq0 := q_free h
  have hstep : step s (.call i (.suspend b)) = setCl s i (.a0 b) := by simp only [step, h.idle i, if_true, entry]
  have hq1 : Q (step s (.call i (.suspend b))) := q_step hq0 _ (fun j op e => by cases e; exact ⟨b, rfl⟩)
  rw [run_cons] at hd ht
  have hin := suspend_completes hq1 i as ha ⟨b, .inl (by rw [hstep, setCl_self])⟩ hd
  have hq2 := q_run hq1 as ha
  have hin' := inForce_run hq2 hin bs hb
  have hq3 := q_run hq2 bs hb
  rw [← ht] at hin' hq3
  have hint : t.int = true := by
    have := hin'.2
    rw [he] at this
    exact this
  have hp : step t .poll = { t with pc := .s1 } := by
    simp only [step]; rw [if_pos ⟨he, hint⟩]
  have hq4 : Q (step t .poll) := q_step hq3 .poll (fun j op e => by cases e)
  have hst : Stopped (step t .poll) := by rw [hp]; exact ⟨hin'.1, trivial⟩
  rw [run_cons, stopped_run hq4 hst cs hc, hp]

/-- A reachable state that meets the hypotheses: cpu_run has just been called. -/
example : Free (run init [.callRun, .cpu, .cpu]) := ⟨rfl, rfl, rfl, fun _ => rfl⟩

/-- And the call does complete, with the guest still executing until the check. -/
example : let t := run (run init [.callRun, .cpu, .cpu, .guest]) [.call 0 (.suspend true), .adv 0, .adv 0, .guest, .adv 0, .adv 0]
    t.cl 0 = .idle ∧ Executing t ∧ t.guest = 2 := ⟨rfl, rfl, rfl⟩

/-- C44: cpu_resume of a cpu blocked in cpu_run. Whatever the interleaving of the two threads, once the call has
returned and the cpu thread has made three more steps the guest executes again and cpu_is_suspended is false. -/
theorem C44_resume_resumes_partial (s : St) (i : Nat) (hp : s.pc = .s4) (hi : s.cl i = .idle) (hs : s.saving = false)
    (as : List Act) (ha : ∀ a ∈ as, a = .cpu ∨ a = .poll ∨ a = .guest ∨ a = .adv i)
    (hd : (run s (.call i .resume :: as)).cl i = .idle) :
    Executing (run s (.call i .resume :: as ++ [.cpu, .cpu, .cpu])) ∧ (run s (.call i .resume :: as ++ [.cpu, .cpu, .cpu])).sus = false := by
  -- where the two threads can be
  let R : St → Prop := fun s => s.saving = false ∧
    ((s.cl i = .r0 ∧ s.pc = .s4) ∨ (s.cl i = .r1 ∧ (s.pc = .s4 ∨ s.pc = .s5 ∨ (s.pc = .s7 ∧ s.sus = false) ∨ (s.pc = .run ∧ s.sus = false ∧ s.int = false))) ∨
     (s.cl i = .r0 ∧ (s.pc = .s5 ∨ (s.pc = .s7 ∧ s.sus = false) ∨ (s.pc = .run ∧ s.sus = false ∧ s.int = false))) ∨
     (s.cl i = .idle ∧ s.flg = false ∧ (s.pc = .s4 ∨ s.pc = .s5 ∨ (s.pc = .s7 ∧ s.sus = false) ∨ (s.pc = .run ∧ s.sus = false ∧ s.int = false))))
  have hR : ∀ (as : List Act) (s : St), (∀ a ∈ as, a = .cpu ∨ a = .poll ∨ a = .guest ∨ a = .adv i) → R s → R (run s as) := by
    intro as
    induction as with
    | nil => intro s _ h; exact h
    | cons a as ih =>
      intro s ha h
      refine ih (step s a) (fun b hb => ha b (List.mem_cons_of_mem _ hb)) ?_
      obtain ⟨h0, h⟩ := h
      rcases ha a List.mem_cons_self with rfl | rfl | rfl | rfl
      · rcases h with ⟨h1, h2⟩ | ⟨h1, h2 | h2 | ⟨h2, h3⟩ | ⟨h2, h3, h4⟩⟩ | ⟨h1, h2 | ⟨h2, h3⟩ | ⟨h2, h3, h4⟩⟩ | ⟨h1, hf, h2 | h2 | ⟨h2, h3⟩ | ⟨h2, h3, h4⟩⟩ <;>
          cases hf' : s.flg <;> simp_all [R, step, cpuStep]
      · rcases h with ⟨h1, h2⟩ | ⟨h1, h2 | h2 | ⟨h2, h3⟩ | ⟨h2, h3, h4⟩⟩ | ⟨h1, h2 | ⟨h2, h3⟩ | ⟨h2, h3, h4⟩⟩ | ⟨h1, hf, h2 | h2 | ⟨h2, h3⟩ | ⟨h2, h3, h4⟩⟩ <;>
          simp_all [R, step]
      · rcases h with ⟨h1, h2⟩ | ⟨h1, h2 | h2 | ⟨h2, h3⟩ | ⟨h2, h3, h4⟩⟩ | ⟨h1, h2 | ⟨h2, h3⟩ | ⟨h2, h3, h4⟩⟩ | ⟨h1, hf, h2 | h2 | ⟨h2, h3⟩ | ⟨h2, h3, h4⟩⟩ <;>
          simp_all [R, step]
      · rcases h with ⟨h1, h2⟩ | ⟨h1, h2 | h2 | ⟨h2, h3⟩ | ⟨h2, h3, h4⟩⟩ | ⟨h1, h2 | ⟨h2, h3⟩ | ⟨h2, h3, h4⟩⟩ | ⟨h1, hf, h2 | h2 | ⟨h2, h3⟩ | ⟨h2, h3, h4⟩⟩ <;>
          simp_all [R, step, clStep, setCl]
  have h0 : R (step s (.call i .resume)) := by
    simp only [step, hi, if_true, entry]
    exact ⟨hs, .inl ⟨setCl_self _ _ _, hp⟩⟩
  have h1 := hR as _ ha h0
  rw [run_cons] at hd
  rw [List.cons_append, run_cons, run_append]
  generalize run (step s (.call i .resume)) as = t at hd h1 ⊢
  obtain ⟨-, ⟨h, -⟩ | ⟨h, -⟩ | ⟨h, -⟩ | ⟨-, hf, h⟩⟩ := h1
  · rw [hd] at h; cases h
  · rw [hd] at h; cases h
  · rw [hd] at h; cases h
  · rcases h with h | h | ⟨h, h'⟩ | ⟨h, h', h''⟩ <;> simp_all [run, step, cpuStep, Executing]

/-- C44: cpu_resume of a cpu whose cpu_run has returned "paused": the next cpu_run executes the guest. -/
theorem C44_resume_after_pause_partial (s : St) (i : Nat) (hp : s.pc = .out) (hi : s.cl i = .idle) (hs : s.saving = false) :
    Executing (run s [.call i .resume, .adv i, .adv i, .callRun, .cpu, .cpu, .cpu, .cpu]) ∧
    (run s [.call i .resume, .adv i, .adv i, .callRun, .cpu, .cpu, .cpu, .cpu]).sus = false := by
  cases hu : s.sus <;> simp [run, step, hi, entry, clStep, setCl, hs, hp, cpuStep, Executing, hu]

/-- Reachable states that meet the hypotheses of the two. -/
example : (run init [.callRun, .cpu, .cpu, .call 0 (.suspend false), .adv 0, .adv 0, .adv 0, .adv 0, .poll, .cpu, .cpu]).pc = .s4 := rfl
example : let s := run init [.callRun, .cpu, .cpu, .call 0 (.suspend true), .adv 0, .adv 0, .adv 0, .adv 0, .poll, .cpu, .cpu, .cpu, .cpu, .cpu]
    s.pc = .out ∧ s.sus = true ∧ s.flg = true := ⟨rfl, rfl, rfl⟩

/-- cpu_run is called, suspended by thread 0 and resumed by it; cpu_is_suspended is already false again. -/
def resumed : List Act :=
  [.callRun, .cpu, .cpu, .call 0 (.suspend false), .adv 0, .adv 0, .adv 0, .adv 0, .poll, .cpu, .cpu,
   .call 0 .resume, .adv 0, .adv 0, .cpu, .cpu]

/-- A second, complete cpu_suspend, and the cpu thread's next step. -/
def secondSuspend : List Act := [.call 0 (.suspend false), .adv 0, .adv 0, .adv 0, .adv 0, .cpu]

/-- Nobody asks to suspend or resume, and cpu_run does not end. -/
def NoCalls (as : List Act) : Prop := ∀ a ∈ as, a = .guest ∨ a = .poll ∨ a = .cpu ∨ ∃ i, a = .adv i

/-- C44 fails: one client thread suspends, resumes, sees that the cpu is no longer suspended and suspends again.
The second request is lost: the guest executes for ever after, check for events or not. -/
theorem C44_lost_suspend_violation :
    (run init resumed).sus = false ∧ (run init resumed).flg = false ∧ (∀ i, (run init resumed).cl i = .idle) ∧
    (∀ i, (run init (resumed ++ secondSuspend)).cl i = .idle) ∧
    (∀ as, NoCalls as → Executing (run init (resumed ++ secondSuspend ++ as)) ∧
      (run init (resumed ++ secondSuspend ++ as)).guest = (run init (resumed ++ secondSuspend)).guest + as.count .guest) := by
  have hI : ∀ i, (run init resumed).cl i = .idle := by
    intro i; by_cases h : i = 0 <;> simp [resumed, run, step, init, cpuStep, clStep, setCl, entry, h]
  have hI2 : ∀ i, (run init (resumed ++ secondSuspend)).cl i = .idle := by
    intro i; by_cases h : i = 0 <;> simp [resumed, secondSuspend, run, step, init, cpuStep, clStep, setCl, entry, h]
  refine ⟨rfl, rfl, hI, hI2, ?_⟩
  have key : ∀ (as : List Act) (s : St), NoCalls as → s.pc = .run → s.int = false → (∀ i, s.cl i = .idle) →
      Executing (run s as) ∧ (run s as).guest = s.guest + as.count .guest := by
    intro as
    induction as with
    | nil => intro s _ hp _ _; exact ⟨hp, rfl⟩
    | cons a as ih =>
      intro s ha hp hi hc
      have ha' : NoCalls as := fun b hb => ha b (List.mem_cons_of_mem _ hb)
      rw [run_cons]
      rcases ha a List.mem_cons_self with rfl | rfl | rfl | ⟨i, rfl⟩
      · have e : step s .guest = { s with guest := s.guest + 1 } := by simp only [step]; rw [if_pos hp]
        rw [e]
        have := ih { s with guest := s.guest + 1 } ha' hp hi hc
        refine ⟨this.1, ?_⟩
        rw [this.2, List.count_cons_self]
        show s.guest + 1 + _ = _
        omega
      · have e : step s .poll = s := by simp only [step, hi]; simp
        rw [e, List.count_cons_of_ne (by simp)]
        exact ih s ha' hp hi hc
      · have e : step s .cpu = s := by simp only [step, cpuStep, hp]
        rw [e, List.count_cons_of_ne (by simp)]
        exact ih s ha' hp hi hc
      · have e : step s (.adv i) = s := by simp only [step, clStep, hc i]
        rw [e, List.count_cons_of_ne (by simp)]
        exact ih s ha' hp hi hc
  intro as ha
  rw [run_append]
  exact key as _ ha rfl rfl hI2

end Verif.Threads
