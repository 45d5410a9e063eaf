import Verif.Lemmas.Seg
import Verif.Lemmas.ModeStep
/- What holds of the registers when a helper completes. -/
namespace Verif.Seg

/-- If the helper completes from a state with `P`, the registers satisfy `Q`. -/
structure Oks {α : Type} (P Q : Regs → Prop) (m : M α) : Prop where
  run : ∀ s a s', P s.r → m s = .ok a s' → Q s'.r

theorem oks_bind {α β : Type} {P Q R : Regs → Prop} {m : M α} {f : α → M β} (h1 : Oks P Q m)
    (h2 : ∀ a, Oks Q R (f a)) : Oks P R (m >>= f) := by
  constructor
  intro s a s' hp hr
  obtain ⟨b, s1, e1, e2⟩ := bind_ok.1 hr
  exact (h2 b).run s1 a s' (h1.run s b s1 hp e1) e2

theorem oks_keeps {α : Type} {P : Regs → Prop} {m : M α} (h : Keeps P m) : Oks P P m := by
  constructor
  intro s a s' hp hr
  have := h.run s hp
  rw [hr] at this; exact this

theorem oks_keeps_bind {α β : Type} {P R : Regs → Prop} {m : M α} {f : α → M β} (h1 : Keeps P m)
    (h2 : ∀ a, Oks P R (f a)) : Oks P R (m >>= f) := oks_bind (oks_keeps h1) h2

theorem oks_modR {P Q : Regs → Prop} {f : Regs → Regs} (h : ∀ r, P r → Q (f r)) : Oks P Q (modR f) := by
  constructor
  intro s a s' hp hr
  rw [modR_ok.1 hr]; exact h _ hp

theorem oks_pure {α : Type} {P Q : Regs → Prop} {a : α} (h : ∀ r, P r → Q r) : Oks P Q (pure a : M α) := by
  constructor
  intro s b s' hp hr
  cases hr; exact h _ hp

theorem oks_stop {α : Type} {P Q : Regs → Prop} {e : Stop} : Oks P Q (stop e : M α) := by
  constructor
  intro s b s' hp hr
  cases hr

theorem oks_getR {α : Type} {P Q : Regs → Prop} {f : Regs → M α} (h : ∀ r, P r → Oks P Q (f r)) :
    Oks P Q (getR >>= f) := by
  constructor
  intro s a s' hp hr
  exact (h s.r hp).run s a s' hp hr

theorem oks_check {α : Type} {P Q : Regs → Prop} {c : Bool} {e : Stop} {f : Unit → M α}
    (h : c = false → Oks P Q (f ())) : Oks P Q (check c e >>= f) := by
  constructor
  intro s a s' hp hr
  rw [bind_check] at hr
  cases c with
  | false => exact (h rfl).run s a s' hp (by simpa using hr)
  | true => rw [if_pos rfl] at hr; cases hr

theorem oks_ite {α : Type} {P Q : Regs → Prop} {c : Prop} [Decidable c] {m n : M α}
    (h1 : c → Oks P Q m) (h2 : ¬ c → Oks P Q n) : Oks P Q (if c then m else n) := by
  by_cases h : c
  · rw [if_pos h]; exact h1 h
  · rw [if_neg h]; exact h2 h

theorem oks_mono {α : Type} {P Q Q' : Regs → Prop} {m : M α} (h : Oks P Q m) (hq : ∀ r, Q r → Q' r) : Oks P Q' m :=
  ⟨fun s a s' hp hr => hq _ (h.run s a s' hp hr)⟩

theorem oks_any {α β : Type} {P Q : Regs → Prop} {m : M α} {f : α → M β} (h : ∀ a, Oks (fun _ => True) Q (f a)) :
    Oks P Q (m >>= f) := oks_bind (Q := fun _ => True) ⟨fun _ _ _ _ _ => trivial⟩ h

/-- If the helper completes from `s`, the registers satisfy `Q`. -/
structure From {α : Type} (s : Cpu) (Q : Regs → Prop) (m : M α) : Prop where
  run : ∀ a s', m s = .ok a s' → Q s'.r

theorem from_oks {α : Type} {s : Cpu} {Q : Regs → Prop} {m : M α} (h : Oks (fun r => r = s.r) Q m) : From s Q m :=
  ⟨fun a s' hr => h.run s a s' rfl hr⟩

theorem from_check {α : Type} {s : Cpu} {Q : Regs → Prop} {c : Bool} {e : Stop} {f : Unit → M α}
    (h : c = false → From s Q (f ())) : From s Q (check c e >>= f) := by
  constructor
  intro a s' hr
  rw [bind_check] at hr
  cases c with
  | false => exact (h rfl).run a s' (by simpa using hr)
  | true => rw [if_pos rfl] at hr; cases hr

theorem from_getR {α : Type} {s : Cpu} {Q : Regs → Prop} {f : Regs → M α} (h : From s Q (f s.r)) :
    From s Q (getR >>= f) := ⟨fun a s' hr => h.run a s' hr⟩

theorem from_ite {α : Type} {s : Cpu} {Q : Regs → Prop} {c : Prop} [Decidable c] {m n : M α}
    (h1 : c → From s Q m) (h2 : ¬ c → From s Q n) : From s Q (if c then m else n) := by
  by_cases h : c
  · rw [if_pos h]; exact h1 h
  · rw [if_neg h]; exact h2 h

theorem from_readDesc {α : Type} {s : Cpu} {Q : Regs → Prop} {acc : Acc} {sel : BitVec 16}
    {f : BitVec 32 × BitVec 64 → M α}
    (h : ∀ d, Spec.descAt s sel = d → ¬ outside s.r sel → From s Q (f (Spec.descAddr s.r sel, d))) :
    From s Q (readDesc acc false sel >>= f) := by
  constructor
  intro a s' hr
  rw [bind_readDesc] at hr
  by_cases h1 : outside s.r sel
  · rw [if_pos h1] at hr; cases hr
  · rw [if_neg h1] at hr
    by_cases h2 : acc s (Spec.descAddr s.r sel) 8 false 2 = true
    · rw [if_pos h2] at hr; exact (h _ rfl h1).run a s' hr
    · rw [if_neg h2] at hr; cases hr

theorem from_mono {α : Type} {s : Cpu} {Q Q' : Regs → Prop} {m : M α} (h : From s Q m) (hq : ∀ r, Q r → Q' r) :
    From s Q' m := ⟨fun a s' hr => hq _ (h.run a s' hr)⟩

end Verif.Seg
