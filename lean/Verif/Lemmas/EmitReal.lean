import Verif.Lemmas.EmitEa
import Verif.Lemmas.EmitX
/-
The lists of Model/Emit*.lean with `.ea a`, and with the code that computes the address in its place.
-/
namespace Verif.Emit
open Host

/-- Not a memory operand. -/
def noEa : I → Bool
  | .ea _ => false
  | _ => true

/-- Leaves RCX and the guest as they are. -/
def quiet : I → Bool
  | .mov _ d _ | .movzx _ d _ | .movsx _ d _ | .alu _ _ d _ | .not _ d | .sh _ _ d _ | .ldG _ d _ | .ldRes d | .ldAux d | .ldL _ d _
  | .setcc _ d | .ldGx _ _ _ d _ | .leaPar d | .ldPar d _ | .lea2 d _ | .ldSel _ d _ => d != .rcx
  | .cmp .. | .test .. | .stL .. | .jeq _ => true
  | _ => false

theorem quiet_noEa {i : I} (h : quiet i = true) : noEa i = true := by
  cases i <;> first | rfl | exact h

theorem ne_of_bne {d : Reg} (h : (d != .rcx) = true) : Reg.rcx ≠ d := by
  cases d <;> simp_all

theorem wr_rcx (h : St) (z : Sz) (d : Reg) (v : BitVec z.bits) (hd : (d != .rcx) = true) : (wr h z d v).r .rcx = h.r .rcx :=
  wr_r_ne h z (ne_of_bne hd) v

theorem ctxd_next {e : Env} {h : St} {o : Out} {k : Nat} {h' : St} (hs : ctxd e h o = .next k h') : o = .next k h' := by
  unfold ctxd at hs
  split at hs
  · exact hs
  · cases hs

theorem quiet_step {e : Env} {h : St} {i : I} {k : Nat} {h' : St} (hq : quiet i = true) (hs : step e h i = .next k h') :
    h'.r .rcx = h.r .rcx ∧ h'.g = h.g := by
  cases i
  case mov | movzx | movsx | alu | not | sh | setcc | ldL | lea2 =>
    simp only [step, Out.next.injEq] at hs
    obtain ⟨-, rfl⟩ := hs
    exact ⟨wr_rcx _ _ _ _ hq, rfl⟩
  case ldG | ldRes | ldAux | ldGx =>
    have := ctxd_next hs
    simp only [Out.next.injEq] at this
    obtain ⟨-, rfl⟩ := this
    exact ⟨wr_rcx _ _ _ _ hq, rfl⟩
  case ldSel zx d s =>
    have := ctxd_next hs
    simp only [Out.next.injEq] at this
    obtain ⟨-, rfl⟩ := this
    cases zx
    · exact ⟨wr_rcx _ .w _ _ hq, rfl⟩
    · exact ⟨wr_rcx _ .d _ _ hq, rfl⟩
  case leaPar d =>
    have := ctxd_next hs
    simp only [Out.next.injEq] at this
    obtain ⟨-, rfl⟩ := this
    exact ⟨by simp [St.set, ne_of_bne hq], rfl⟩
  case ldPar =>
    simp only [step] at hs
    split at hs
    · simp only [Out.next.injEq] at hs
      obtain ⟨-, rfl⟩ := hs
      exact ⟨wr_rcx _ _ _ _ hq, rfl⟩
    · cases hs
  case cmp | test | stL | jeq =>
    simp only [step, Out.next.injEq] at hs
    obtain ⟨-, rfl⟩ := hs
    exact ⟨rfl, rfl⟩
  all_goals simp [quiet] at hq

theorem stepWith_noEa {e : Env} {m : MemOp} {h : St} {i : I} (hi : noEa i = true) : stepWith e m h i = step e h i := by
  cases i <;> first | rfl | simp [noEa] at hi

theorem runWith_noEa {e : Env} {m : MemOp} : ∀ (l : List I) (k : Nat) (h : St), l.all noEa = true →
    runWith e m k l h = run e k l h
  | [], k, h, _ => by cases k <;> rfl
  | i :: l, k + 1, h, hl => by
    simp only [List.all_cons, Bool.and_eq_true] at hl
    exact runWith_noEa l k h hl.2
  | i :: l, 0, h, hl => by
    simp only [List.all_cons, Bool.and_eq_true] at hl
    unfold runWith run
    rw [stepWith_noEa hl.1]
    cases step e h i with
    | next k h' => exact runWith_noEa l k h' hl.2
    | fault g => rfl
    | stuck => rfl

/-- Code with one memory operand, before which nothing changes RCX or the guest. -/
def OneEa (f : Ea → List I) : Prop :=
  ∃ pre post, (∀ a, f a = pre ++ .ea a :: post) ∧ pre.all quiet = true ∧ post.all noEa = true

theorem real_pre {e : Env} (m : MemOp) (hm : m.ok) (post : List I) (hp : post.all noEa = true) :
    ∀ (pre : List I) (k : Nat) (h : St), h.r .rcx = e.ctx → pre.all quiet = true →
      ∃ a : Ea, a.lin = m.addr e h.g ∧ ∀ a0, runWith e m k (pre ++ .ea a0 :: post) h = run e k (pre ++ .ea a :: post) h
  | [], 0, h, hc, _ => by
    obtain ⟨a, ha, hs⟩ := eaCode_run (h := h) hc m hm
    refine ⟨a, ha, fun a0 => ?_⟩
    have : stepWith e m h (.ea a0) = step e h (.ea a) := by rw [← hs]; rfl
    simp only [List.nil_append, runWith, run, this]
    cases step e h (.ea a) with
    | next k h' => exact runWith_noEa _ _ _ hp
    | fault g => rfl
    | stuck => rfl
  | [], k + 1, h, _, _ => ⟨⟨m.addr e h.g, 0, 0, fun _ => false⟩, rfl, fun a0 => runWith_noEa post k h hp⟩
  | i :: l, k + 1, h, hc, hq => by
    simp only [List.all_cons, Bool.and_eq_true] at hq
    obtain ⟨a, ha, hr⟩ := real_pre m hm post hp l k h hc hq.2
    exact ⟨a, ha, hr⟩
  | i :: l, 0, h, hc, hq => by
    simp only [List.all_cons, Bool.and_eq_true] at hq
    cases hs : step e h i with
    | next k h' =>
      obtain ⟨h1, h2⟩ := quiet_step hq.1 hs
      obtain ⟨a, ha, hr⟩ := real_pre m hm post hp l k h' (h1.trans hc) hq.2
      refine ⟨a, by rw [ha, h2], fun a0 => ?_⟩
      simp only [List.cons_append, runWith, run, stepWith_noEa (quiet_noEa hq.1), hs]
      exact hr a0
    | fault g =>
      refine ⟨⟨m.addr e h.g, 0, 0, fun _ => false⟩, rfl, fun a0 => ?_⟩
      simp only [List.cons_append, runWith, run, stepWith_noEa (quiet_noEa hq.1), hs]
    | stuck =>
      refine ⟨⟨m.addr e h.g, 0, 0, fun _ => false⟩, rfl, fun a0 => ?_⟩
      simp only [List.cons_append, runWith, run, stepWith_noEa (quiet_noEa hq.1), hs]

/-- With the code of the address in its place, the code does what the list with that address does. -/
theorem realize {e : Env} {f : Ea → List I} (hf : OneEa f) (m : MemOp) (hm : m.ok) {h : St} (hc : h.r .rcx = e.ctx) :
    ∃ a : Ea, a.lin = m.addr e h.g ∧ ∀ a0, runWith e m 0 (f a0) h = run e 0 (f a) h := by
  obtain ⟨pre, post, he, h1, h2⟩ := hf
  obtain ⟨a, ha, hr⟩ := real_pre m hm post h2 pre 0 h hc h1
  exact ⟨a, ha, fun a0 => by rw [he, he]; exact hr a0⟩

end Verif.Emit
