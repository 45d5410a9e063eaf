import Verif.Props.StiShadow
/-
C71: HLT.
-/
namespace Verif.Ints

variable {ρ : Type}

/-! ### C71: HLT -/

/-- Waiting in HLT, with no exit request pending. -/
def Waiting (s : St ρ) : Prop :=
  bit s.ints 1 = false ∧
  match s.phase with
  | .hlt => True
  | .busy _ flg _ h => h = true ∧ bit flg 1 = false
  | _ => False

/-- No stop request, and no delivery of an exception that itself ends in a page fault. -/
def Undisturbed : Act ρ → Prop
  | .exit => False
  | .micro thr _ => thr = false
  | _ => True

theorem waiting_step {s : St ρ} (h : Waiting s) (a : Act ρ) (ha : Undisturbed a) :
    (Waiting (step s a) ∧ ∃ l, (step s a).log = s.log ++ l ∧ .instr ∉ l) ∨ (step s a).log = s.log ++ [.hw] := by
  obtain ⟨h1, h2⟩ := h
  have hclient : client a → Waiting (step s a) ∧ ∃ l, (step s a).log = s.log ++ l ∧ Ev.instr ∉ l := by
    intro hc
    have hq := client_quiet s a hc
    refine ⟨⟨?_, ?_⟩, [], by rw [hq.2.2, List.append_nil], by simp⟩
    · cases a <;> first | exact False.elim ha | exact False.elim hc | skip
      all_goals simp only [step]
      all_goals repeat' split
      all_goals simp [raise, clear, h1]
    · rw [hq.1]; exact h2
  cases a with
  | poll =>
    left
    simp only [step, poll]
    split <;> rename_i hp <;> try rw [hp] at h2
    · exact h2.elim
    · unfold enter
      rw [has_ABORT, h1]
      rw [if_neg (by decide)]
      repeat' split
      all_goals exact ⟨⟨h1, by simp_all⟩, [], by simp, by simp⟩
    · exact ⟨⟨h1, h2⟩, [], by simp, by simp⟩
  | micro t n =>
    cases ha
    simp only [step, micro]
    split
    case h_7 hno => exact .inl ⟨⟨h1, h2⟩, [], by simp, by simp⟩
    all_goals rename_i hp
    all_goals rw [hp] at h2
    all_goals simp only at h2
    case h_6 => exact .inr (by simp)
    case h_5 =>
      left
      rw [h2.1]
      exact ⟨⟨by simp [clear, h1], by simp [clear]⟩, [], by simp [clear], by simp⟩
    all_goals left
    all_goals repeat' split
    all_goals try contradiction
    all_goals refine ⟨⟨h1, h2⟩, ?_⟩
    all_goals first
      | exact ⟨[.debug], rfl, by simp⟩
      | exact ⟨[], (List.append_nil _).symm, by simp⟩
  | exec i =>
    left
    simp only [step]
    split
    · rename_i hp; rw [hp] at h2; exact h2.elim
    · exact ⟨⟨h1, h2⟩, [], by simp, by simp⟩
  | start =>
    left
    simp only [step]
    split
    · rename_i hp; rw [hp] at h2; exact h2.elim
    · exact ⟨⟨h1, h2⟩, [], by simp, by simp⟩
  | setA20 m => exact .inl (hclient trivial)
  | region m => exact .inl (hclient trivial)
  | handler m n => exact .inl (hclient trivial)
  | handlersNow => exact .inl (hclient trivial)
  | raiseLine => exact .inl (hclient trivial)
  | lowerLine => exact .inl (hclient trivial)
  | exit => exact .inl (hclient trivial)

/-- C71: a halted cpu executes nothing until a hardware interrupt has been delivered, as long as nobody asks
it to stop. -/
theorem C71_halt_partial (s : St ρ) (hp : s.phase = .hlt) (hx : bit s.ints 1 = false) (as : List (Act ρ))
    (ha : ∀ a ∈ as, Undisturbed a) (l : List Ev) (hl : (run s as).log = s.log ++ l) (hi : .instr ∈ l) :
    ∃ l1 l2, l = l1 ++ .hw :: l2 ∧ .instr ∉ l1 := by
  have key : ∀ (as : List (Act ρ)) (s : St ρ), Waiting s → (∀ a ∈ as, Undisturbed a) →
      (∃ l, (run s as).log = s.log ++ l ∧ .instr ∉ l) ∨ ∃ l1 l2, (run s as).log = s.log ++ l1 ++ .hw :: l2 ∧ .instr ∉ l1 := by
    intro as
    induction as with
    | nil => intro s _ _; exact .inl ⟨[], by simp [run], by simp⟩
    | cons a as ih =>
      intro s hw ha
      rw [run_cons]
      rcases waiting_step hw a (ha a List.mem_cons_self) with ⟨h', l, hl, hn⟩ | hi
      · rcases ih _ h' (fun x hx => ha x (List.mem_cons_of_mem _ hx)) with ⟨l', hl', hn'⟩ | ⟨l1, l2, hl', hn'⟩
        · exact .inl ⟨l ++ l', by rw [hl', hl, List.append_assoc], by simp [hn, hn']⟩
        · exact .inr ⟨l ++ l1, l2, by rw [hl', hl]; simp, by simp [hn, hn']⟩
      · obtain ⟨l, hl⟩ := log_run (step s a) as
        exact .inr ⟨[], l, by rw [← hl, hi]; simp, by simp⟩
  rcases key as s ⟨hx, by rw [hp]; trivial⟩ ha with ⟨l', h1, h2⟩ | ⟨l1, l2, h1, h2⟩
  · rw [hl] at h1
    have : l = l' := by simpa using h1
    rw [this] at hi
    exact absurd hi h2
  · rw [hl] at h1
    exact ⟨l1, l2, by simpa using h1, h2⟩

/-- C71, the gap: a halted cpu that is stopped with cpu_exit and started again goes on with the instruction after
HLT, although no interrupt was delivered: cpu_run does not know that the cpu was halted. -/
theorem C71_exit_forgets_halt_violation (s : St ρ) (hp : s.phase = .hlt) (newIf : Option Bool) :
    (run s [.exit, .poll, .start, .exec (.plain newIf)]).log = s.log ++ [.exited, .instr] := by
  have hb : bit (s.ints ||| ABORT) 1 = true := by simp
  simp [run, step, raise, poll, hp, enter, has_ABORT, hb, clear, exec]

/-- The cpu hangs: it waits in HLT with IF clear and no debug trap left to deliver. -/
def Stuck (s : St ρ) : Prop :=
  s.ifl = false ∧ bit s.ints 1 = false ∧ bit s.ints 8 = false ∧
  match s.phase with
  | .hlt => True
  | .busy st flg _ h => h = true ∧ bit flg 1 = false ∧ bit flg 8 = false ∧ st ≠ .hw
  | _ => False

theorem stuck_step {s : St ρ} (h : Stuck s) (a : Act ρ) (ha : a ≠ .exit) : Stuck (step s a) ∧ (step s a).log = s.log := by
  obtain ⟨h0, h1, h8, h2⟩ := h
  have hclient : client a → Stuck (step s a) ∧ (step s a).log = s.log := by
    intro hc
    have hq := client_quiet s a hc
    refine ⟨⟨by rw [hq.2.1]; exact h0, ?_, ?_, by rw [hq.1]; exact h2⟩, hq.2.2⟩
    all_goals cases a <;> first | exact absurd rfl ha | exact False.elim hc | skip
    all_goals simp only [step]
    all_goals repeat' split
    all_goals simp [raise, clear, h1, h8]
  cases a with
  | poll =>
    simp only [step, poll]
    split <;> rename_i hp <;> try rw [hp] at h2
    · exact h2.elim
    · unfold enter
      rw [has_ABORT, h1, if_neg (by decide)]
      split
      · exact ⟨⟨h0, h1, h8, rfl, h1, h8, by decide⟩, rfl⟩
      · rw [if_neg (by simp [h0])]
        exact ⟨⟨h0, h1, h8, trivial⟩, rfl⟩
    · exact ⟨⟨h0, h1, h8, h2⟩, rfl⟩
  | micro t n =>
    simp only [step, micro]
    split
    case h_7 hno => exact ⟨⟨h0, h1, h8, h2⟩, rfl⟩
    all_goals rename_i hp
    all_goals rw [hp] at h2
    all_goals simp only at h2
    case h_6 => exact absurd rfl h2.2.2.2
    case h_5 =>
      rw [h2.1]
      exact ⟨⟨h0, by simp [clear, h1], by simp [clear, h8], by simp [clear]⟩, rfl⟩
    case h_1 =>
      rw [has_DBG_TRAP, h2.2.2.1]
      exact ⟨⟨h0, h1, h8, by simp [h2]⟩, rfl⟩
    all_goals repeat' split
    all_goals exact ⟨⟨h0, h1, h8, by simp [h2]⟩, rfl⟩
  | exec i =>
    simp only [step]
    split
    · rename_i hp; rw [hp] at h2; exact h2.elim
    · exact ⟨⟨h0, h1, h8, h2⟩, rfl⟩
  | start =>
    simp only [step]
    split
    · rename_i hp; rw [hp] at h2; exact h2.elim
    · exact ⟨⟨h0, h1, h8, h2⟩, rfl⟩
  | exit => contradiction
  | setA20 m => exact hclient trivial
  | region m => exact hclient trivial
  | handler m n => exact hclient trivial
  | handlersNow => exact hclient trivial
  | raiseLine => exact hclient trivial
  | lowerLine => exact hclient trivial

/-- C71, the gap: a debug trap pending when HLT is executed is delivered by the waiting loop, which then goes on
waiting: the debug handler has been entered but never runs. With an interrupt gate IF is then clear, so that
nothing but cpu_exit ever ends the wait. -/
theorem C71_debug_trap_hangs_violation (b : Bool) (m : BitVec 32) :
    ∃ t : St ρ, t = run (boot b m) [.exec .watched, .exec .hlt, .poll, .micro false false, .micro false false, .micro false false,
      .micro false false, .micro false false] ∧ t.log = [.instr, .instr, .debug] ∧
    ∀ as, (∀ a ∈ as, a ≠ .exit) → (run t as).log = t.log := by
  have hrun : run (boot b m : St ρ) [.exec .watched, .exec .hlt, .poll, .micro false false, .micro false false, .micro false false,
      .micro false false, .micro false false] = { (boot b m : St ρ) with isDb := true, ran := true, phase := .hlt, ifl := false,
                                                                         ints := 0#32, log := [.instr, .instr, .debug] } := by
    simp [run, step, exec, boot, raise, poll, enter, has, micro, clear, ABORT, DBG_TRAP, NON_HW, A20, REGION, SUSPEND, HANDLER, MASKED, HALT_TC]
  rw [hrun]
  refine ⟨_, rfl, rfl, ?_⟩
  intro as
  have h0 : Stuck { (boot b m : St ρ) with isDb := true, ran := true, phase := .hlt, ifl := false, ints := 0#32, log := [.instr, .instr, .debug] } :=
    ⟨rfl, bit_zero 1, bit_zero 8, trivial⟩
  generalize ({ (boot b m : St ρ) with isDb := true, ran := true, phase := .hlt, ifl := false, ints := 0#32, log := [.instr, .instr, .debug] } : St ρ) = t at h0
  induction as generalizing t with
  | nil => intro _; rfl
  | cons a as ih =>
    intro ha
    have := stuck_step h0 a (ha a List.mem_cons_self)
    rw [run_cons, ih _ this.1 (fun x hx => ha x (List.mem_cons_of_mem _ hx)), this.2]

example : let s := run (boot true 0#32 : St Nat) [.exec .hlt]
    s.phase = .hlt ∧ bit s.ints 1 = false ∧ (run s [.raiseLine, .poll, .micro false false, .exec (.plain none)]).log = s.log ++ [.hw, .instr] :=
  ⟨rfl, rfl, by decide⟩

end Verif.Ints
