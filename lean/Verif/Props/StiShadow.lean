import Verif.Props.Ints
/-
C45: the instruction after STI.
-/
namespace Verif.Ints

variable {ρ : Type}

/-! ### the instruction after STI -/

theorem log_enter (s : St ρ) (flg : BitVec 32) (h : Bool) : s.log <+: (enter s flg h).log := by
  unfold enter
  repeat' split
  all_goals simp

theorem log_step (s : St ρ) (a : Act ρ) : s.log <+: (step s a).log := by
  cases a with
  | poll =>
    simp only [step, poll]
    repeat' split
    all_goals first
      | exact List.prefix_rfl
      | exact log_enter { s with ran := false } _ _
      | exact log_enter s _ _
  | micro t n =>
    simp only [step, micro]
    repeat' split
    all_goals simp [clear]
  | exec i =>
    simp only [step]
    split
    · cases i <;> simp only [exec]
      case sti => split <;> simp [raise]
      all_goals simp [raise]
    · simp
  | _ =>
    simp only [step]
    repeat' split
    all_goals simp [raise, clear]

theorem log_run (s : St ρ) (as : List (Act ρ)) : s.log <+: (run s as).log := by
  induction as generalizing s with
  | nil => exact List.prefix_rfl
  | cons a as ih => exact (log_step s a).trans (ih _)

/-- Interrupts are still held off. -/
def Held (s : St ρ) : Prop :=
  match s.phase with
  | .run => bit s.ints 7 = true ∨ s.ran = false
  | .hlt => False
  | .busy st _ _ h => st ≠ .hw ∧ h = false ∧ s.ran = false
  | .stopped => True

/-- A step while interrupts are held off: they still are and nothing is delivered, or an instruction is executed. -/
theorem held_step {s : St ρ} (h : Held s) (a : Act ρ) :
    (Held (step s a) ∧ ∃ l, (step s a).log = s.log ++ l ∧ .hw ∉ l) ∨ (step s a).log = s.log ++ [.instr] := by
  have hclient : client a → Held (step s a) ∧ ∃ l, (step s a).log = s.log ++ l ∧ Ev.hw ∉ l := by
    intro hc
    have hq := client_quiet s a hc
    refine ⟨?_, [], by rw [hq.2.2, List.append_nil], by simp⟩
    unfold Held at h ⊢
    rw [hq.1]
    have hr : (step s a).ran = s.ran := by
      cases a <;> first | cases hc | skip
      all_goals simp only [step]
      all_goals repeat' split
      all_goals rfl
    have h7 : bit (step s a).ints 7 = bit s.ints 7 := by
      cases a <;> first | cases hc | skip
      all_goals simp only [step]
      all_goals repeat' split
      all_goals simp [raise, clear]
    rw [hr, h7]
    exact h
  cases a with
  | poll =>
    left
    unfold Held at h
    simp only [step, poll]
    split <;> rename_i hp <;> try rw [hp] at h
    · simp only at h
      split <;> rename_i hr
      · rw [hr] at h
        have h7 : bit s.ints 7 = true := by simpa using h
        have hv : bit (visible s) 7 = true := by
          unfold visible
          rw [bit_and, bit_or, h7]
          simp
        have hne : visible s ≠ 0#32 := by
          intro hz; rw [hz] at hv; simp at hv
        rw [if_neg hne]
        have hn : has (visible s) NON_HW = true := by
          unfold has
          rw [bne_iff_ne]
          intro hz
          have h2 : bit (visible s &&& NON_HW) 7 = true := by rw [bit_and, hv]; rfl
          rw [hz] at h2
          simp at h2
        unfold enter
        split
        · exact ⟨by simp [Held], [.exited], rfl, by simp⟩
        · exact ⟨by simp [Held], [], by simp, by simp⟩
      · exact ⟨by unfold Held; rw [hp]; exact .inr (by simpa using hr), [], by simp, by simp⟩
    · exact h.elim
    · exact ⟨by unfold Held; exact h, [], by simp, by simp⟩
  | micro t n =>
    left
    unfold Held at h
    simp only [step, micro]
    split
    case h_7 hno => exact ⟨by unfold Held; exact h, [], by simp, by simp⟩
    all_goals rename_i hp
    all_goals rw [hp] at h
    all_goals simp only at h
    case h_6 => exact absurd rfl h.1
    case h_5 => 
      rw [h.2.1]
      exact ⟨by simp [Held, clear, h.2.2], [], by simp [clear], by simp⟩
    all_goals repeat' split
    all_goals refine ⟨by simp [Held, h.2.1, h.2.2], ?_⟩
    all_goals first
      | exact ⟨[.debug], rfl, by simp⟩
      | exact ⟨[], (List.append_nil _).symm, by simp⟩
  | exec i =>
    simp only [step]
    split
    · right
      cases i <;> simp only [exec]
      case sti => split <;> simp [raise]
      all_goals simp [raise]
    · exact .inl ⟨h, [], by simp, by simp⟩
  | start =>
    left
    simp only [step]
    split
    · exact ⟨by simp [Held], [], by simp, by simp⟩
    · exact ⟨h, [], by simp, by simp⟩
  | setA20 m => exact .inl (hclient trivial)
  | region m => exact .inl (hclient trivial)
  | handler m n => exact .inl (hclient trivial)
  | handlersNow => exact .inl (hclient trivial)
  | raiseLine => exact .inl (hclient trivial)
  | lowerLine => exact .inl (hclient trivial)
  | exit => exact .inl (hclient trivial)

theorem held_run {s : St ρ} (h : Held s) (as : List (Act ρ)) :
    (∃ l, (run s as).log = s.log ++ l ∧ .hw ∉ l) ∨ ∃ l1 l2, (run s as).log = s.log ++ l1 ++ .instr :: l2 ∧ .hw ∉ l1 := by
  induction as generalizing s with
  | nil => exact .inl ⟨[], by simp [run], by simp⟩
  | cons a as ih =>
    rw [run_cons]
    rcases held_step h a with ⟨h', l, hl, hn⟩ | hi
    · rcases ih h' with ⟨l', hl', hn'⟩ | ⟨l1, l2, hl', hn'⟩
      · exact .inl ⟨l ++ l', by rw [hl', hl, List.append_assoc], by simp [hn, hn']⟩
      · exact .inr ⟨l ++ l1, l2, by rw [hl', hl]; simp, by simp [hn, hn']⟩
    · obtain ⟨l, hl⟩ := log_run (step s a) as
      exact .inr ⟨[], l, by rw [← hl, hi]; simp, by simp⟩

/-- C45: after an STI that sets IF, at least one more instruction is executed before a hardware interrupt is
delivered, whatever happens in between. -/
theorem C45_sti_shadow (s : St ρ) (hp : s.phase = .run) (hi : s.ifl = false) (as : List (Act ρ)) (l : List Ev)
    (hl : (run s (.exec .sti :: as)).log = s.log ++ .instr :: l) (hw : .hw ∈ l) : ∃ l1 l2, l = l1 ++ .instr :: l2 ∧ .hw ∉ l1 := by
  rw [run_cons] at hl
  have hs : step s (.exec .sti) = raise { s with ran := true, ifl := true, log := s.log ++ [.instr] } MASKED := by
    simp only [step, hp, if_true, exec, hi]
    rfl
  have hh : Held (step s (.exec .sti)) := by
    rw [hs]
    simp [Held, raise, hp]
  have hlog : (step s (.exec .sti)).log = s.log ++ [.instr] := by rw [hs]; rfl
  rcases held_run hh as with ⟨l', h1, h2⟩ | ⟨l1, l2, h1, h2⟩
  · rw [hl, hlog] at h1
    have : l = l' := by simpa using h1
    rw [this] at hw
    exact absurd hw h2
  · rw [hl, hlog] at h1
    exact ⟨l1, l2, by simpa using h1, h2⟩

/-- A run with an interrupt raised by another thread while IF is clear, STI, one more instruction, and the delivery. -/
example : (run (boot false 0#32 : St Nat) [.exec (.plain none), .raiseLine, .poll, .exec .sti, .poll, .micro false false, .micro false false,
    .micro false false, .micro false false, .micro false false, .exec (.plain none), .poll, .micro false false]).log =
    [.instr, .instr, .instr, .hw] := by decide

end Verif.Ints
