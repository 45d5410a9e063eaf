/-
C109: single stepping and instruction breakpoints.
-/
import Verif.Spec.DbgStep

namespace Verif.Step

variable {σ : Type}

/-- The relation on DR6. -/
def Sup (d s : BitVec 32) : Prop := (∀ i, s.getLsbD i = true → d.getLsbD i = true) ∧ ∀ i, 4 ≤ i → d.getLsbD i = s.getLsbD i

theorem Sup.or {d s : BitVec 32} (h : Sup d s) (x : BitVec 32) : Sup (d ||| x) (s ||| x) := by
  constructor
  · intro i hi
    rw [BitVec.getLsbD_or, Bool.or_eq_true] at hi ⊢
    exact hi.imp (h.1 i) id
  · intro i hi
    rw [BitVec.getLsbD_or, BitVec.getLsbD_or, h.2 i hi]

theorem bit_hi : ∀ (j : Fin 4) (i : Fin 32), 4 ≤ i.val → (bit j).getLsbD i.val = false := by decide +kernel

theorem Sup.early {d s : BitVec 32} (h : Sup d s) (j : Fin 4) : Sup (d ||| bit j) s := by
  constructor
  · intro i hi
    rw [BitVec.getLsbD_or, h.1 i hi, Bool.true_or]
  · intro i hi
    rw [BitVec.getLsbD_or, h.2 i hi]
    by_cases h32 : i < 32
    · rw [bit_hi j ⟨i, h32⟩ hi, Bool.or_false]
    · rw [BitVec.getLsbD_of_ge (bit j) i (by omega), Bool.or_false]

/-- What holds between two blocks. -/
structure Core (m : M σ) (s : G σ) : Prop where
  eip : m.eip = s.eip
  fl : m.fl = s.fl
  rest : m.rest = s.rest
  bps : m.bps = s.bps
  log : m.log = s.log
  dr6 : Sup m.dr6 s.dr6

/-- And a trap is pending only if it is to be dismissed. -/
structure Rel (q : Bool) (m : M σ) (s : G σ) : Prop extends Core m s where
  trap : m.trap = true → q = true ∧ m.idx ≠ 1 ∧ m.fl = ⟨false, false⟩

theorem Rel.early {m : M σ} {s : G σ} (r : Rel false m s) (j : Fin 4) : Rel false { m with dr6 := m.dr6 ||| bit j, idx := 1 } s :=
  ⟨⟨r.eip, r.fl, r.rest, r.bps, r.log, r.dr6.early j⟩, fun h => absurd (r.trap h).1 (by decide)⟩

theorem step_none (h : Hand σ) (P : Addr → Insn σ) (s : G σ) (hb : (if s.fl.rf then none else s.bps s.eip) = none) :
    G.step h P s = match (P s.eip).act s.rest with
      | .raise n b r ret => G.take h n ret { s with rest := r, dr6 := s.dr6 ||| b.setWidth 32 }
      | .done e =>
        if s.fl.tf = true ∨ e.hit ≠ 0#4 then
          G.take h 1 e.next { s with eip := e.next, rest := e.rest, bps := e.bps s.bps, fl := e.fl.getD ⟨s.fl.tf, false⟩, dr6 := s.dr6 ||| e.hit.setWidth 32 ||| (if s.fl.tf then 0x4000#32 else 0#32) }
        else { s with eip := e.next, rest := e.rest, bps := e.bps s.bps, fl := e.fl.getD ⟨s.fl.tf, false⟩, dr6 := s.dr6 ||| e.hit.setWidth 32 ||| (if s.fl.tf then 0x4000#32 else 0#32) } := by
  unfold G.step
  rw [hb]
  rfl

theorem step_some (h : Hand σ) (P : Addr → Insn σ) (s : G σ) (i : Fin 4) (hb : (if s.fl.rf then none else s.bps s.eip) = some i) :
    G.step h P s = G.take h 1 s.eip { s with dr6 := s.dr6 ||| bit i } := by
  unfold G.step
  rw [hb]
  rfl

theorem deliver_rel {q : Bool} {m : M σ} {s : G σ} (h : Hand σ) (n : Nat) (ret : Addr) (r : Core m s) (hn : m.trap = true → q = true ∧ n ≠ 1) :
    Rel q (deliver h n ret m) (G.take h n ret s) := by
  refine ⟨⟨rfl, rfl, ?_, r.bps, ?_, r.dr6⟩, fun h => ⟨(hn h).1, (hn h).2, rfl⟩⟩ <;> (unfold deliver G.take; dsimp only; rw [r.fl])
  · rw [r.rest]
  · rw [r.log]

theorem hits_zero (m : M σ) : hits 0#4 m = m := if_pos rfl

theorem or_zero4 (d : BitVec 32) : d ||| (0#4).setWidth 32 = d := by
  have : (0#4).setWidth 32 = 0#32 := rfl
  rw [this, BitVec.or_zero]

theorem raise_rel {q : Bool} {m : M σ} {s : G σ} (h : Hand σ) (n : Nat) (b : BitVec 4) (rr : σ) (ret : Addr) (r : Rel q m s)
    (hm : if q then n ≠ 1 else b = 0#4) :
    Rel q (deliver h n ret (hits b { m with rest := rr })) (G.take h n ret { s with rest := rr, dr6 := s.dr6 ||| b.setWidth 32 }) := by
  by_cases hb : b = 0#4
  · subst hb
    rw [hits_zero, or_zero4]
    refine deliver_rel h n ret ⟨r.eip, r.fl, rfl, r.bps, r.log, r.dr6⟩ (fun ht => ?_)
    have hq := (r.trap ht).1
    rw [hq, if_pos rfl] at hm
    exact ⟨hq, hm⟩
  · cases q with
    | false => exact absurd hm hb
    | true =>
      unfold hits
      rw [if_neg hb]
      exact deliver_rel h n ret ⟨r.eip, r.fl, rfl, r.bps, r.log, r.dr6.or _⟩ (fun _ => ⟨rfl, hm⟩)

/-- A pending trap is dismissed. -/
theorem dismiss {q : Bool} {m m' : M σ} {s s' : G σ} (h : Hand σ) (r : Rel q m s) (ht : m.trap = true) (hi : m'.idx = m.idx) (c : Core m' s') :
    Rel q (doInt h m') s' := by
  unfold doInt
  rw [if_neg (by rw [hi]; exact (r.trap ht).2.1)]
  exact ⟨⟨c.eip, c.fl, c.rest, c.bps, c.log, c.dr6⟩, fun h => by cases h⟩

theorem endCheck_eq (h : Hand σ) (f : Fl) (m : M σ) : endCheck h f m =
    if f.tf then deliver h 1 m.eip { m with fl := if f.rf then { m.fl with rf := false } else m.fl, dr6 := m.dr6 ||| 0x4000#32, idx := 1 }
    else check h { m with fl := if f.rf then { m.fl with rf := false } else m.fl } := by
  unfold endCheck
  cases f.rf <;> rfl

/-- RF after the last instruction. -/
theorem rf_after (f : Fl) (o : Option Fl) (h2 : f.rf = true → ∀ g, o = some g → g.rf = false) :
    (if f.rf then ({ (o.getD f) with rf := false } : Fl) else o.getD f) = o.getD ⟨f.tf, false⟩ := by
  obtain ⟨t, b⟩ := f
  cases o with
  | none => cases b <;> rfl
  | some g =>
    cases b with
    | false => rfl
    | true => obtain ⟨gt, gr⟩ := g; have := h2 rfl _ rfl; dsimp only at this; subst this; rfl

theorem body_cons (h : Hand σ) (P : Addr → Insn σ) (f : Fl) (brk : Bool) (a : Addr) (l : List Addr) (m : M σ) :
    body h P f brk (a :: l) m = match (P a).act m.rest with
      | .raise n b r ret => deliver h n ret (hits b { m with rest := r })
      | .done e =>
        if l = [] ∧ brk = false then endCheck h f (hits e.hit { m with rest := e.rest, eip := e.next, fl := e.fl.getD m.fl, bps := e.bps m.bps })
        else if (hits e.hit { m with rest := e.rest, eip := e.next, fl := e.fl.getD m.fl, bps := e.bps m.bps }).trap then
          doInt h (hits e.hit { m with rest := e.rest, eip := e.next, fl := e.fl.getD m.fl, bps := e.bps m.bps })
        else body h P f brk l (hits e.hit { m with rest := e.rest, eip := e.next, fl := e.fl.getD m.fl, bps := e.bps m.bps }) := rfl

/-- The last instruction of a block. -/
theorem last_rel {q : Bool} (h : Hand σ) (P : Addr → Insn σ) (m : M σ) (s : G σ) (r : Rel q m s)
    (hb : (if s.fl.rf then none else s.bps s.eip) = none) (hm : Mild q P s) : Rel q (body h P m.fl false [m.eip] m) (G.step h P s) := by
  rw [step_none h P s hb]
  unfold Mild at hm
  replace hm := hm.2
  unfold body
  rw [show (P m.eip).act m.rest = (P s.eip).act s.rest by rw [r.eip, r.rest]]
  cases ha : (P s.eip).act s.rest with
  | raise n b rr ret =>
    rw [ha] at hm
    dsimp only at hm ⊢
    exact raise_rel h n b rr ret r hm
  | done e =>
    rw [ha] at hm
    dsimp only at hm ⊢
    obtain ⟨h1, h2, -⟩ := hm
    have hfl := rf_after s.fl e.fl h2
    rw [if_pos ⟨rfl, rfl⟩, r.fl, r.bps, endCheck_eq]
    by_cases ht : s.fl.tf = true
    · rw [h1 ht, hits_zero, or_zero4, if_pos (Or.inl ht), if_pos ht, if_pos ht]
      refine deliver_rel h 1 e.next ⟨rfl, hfl, rfl, rfl, r.log, r.dr6.or _⟩ (fun htr => ?_)
      have hff := (r.trap htr).2.2
      rw [r.fl] at hff
      rw [hff] at ht
      cases ht
    · rw [if_neg ht, if_neg ht, BitVec.or_zero]
      unfold check
      by_cases hh : e.hit = 0#4
      · rw [hh, hits_zero, or_zero4, if_neg (show ¬ (s.fl.tf = true ∨ 0#4 ≠ 0#4) from fun hc => hc.elim ht (fun hc => hc rfl))]
        dsimp only
        by_cases htr : m.trap = true
        · rw [if_pos htr]
          exact dismiss h r htr rfl ⟨rfl, hfl, rfl, rfl, r.log, r.dr6⟩
        · rw [if_neg htr]
          exact ⟨⟨rfl, hfl, rfl, rfl, r.log, r.dr6⟩, fun h => absurd h htr⟩
      · rw [if_pos (Or.inr hh)]
        unfold hits
        rw [if_neg hh]
        unfold doInt
        dsimp only
        rw [if_pos rfl, if_pos rfl]
        have := deliver_rel (q := q) h 1 e.next (m := { m with trap := false, rest := e.rest, eip := e.next, fl := if s.fl.rf then { (e.fl.getD s.fl) with rf := false } else e.fl.getD s.fl, bps := e.bps s.bps, dr6 := m.dr6 ||| e.hit.setWidth 32, idx := 1 })
          (s := { s with eip := e.next, rest := e.rest, bps := e.bps s.bps, fl := e.fl.getD ⟨s.fl.tf, false⟩, dr6 := s.dr6 ||| e.hit.setWidth 32 }) ⟨rfl, hfl, rfl, rfl, r.log, r.dr6.or _⟩ (fun h => by cases h)
        exact ⟨⟨this.eip, this.fl, this.rest, this.bps, this.log, this.dr6⟩, fun h => by cases h⟩

/-- An instruction with which the block goes on. -/
theorem inner_rel {q : Bool} (h : Hand σ) (P : Addr → Insn σ) (hp : Plain P) (m : M σ) (s : G σ) (r : Rel q m s) (hf : s.fl = ⟨false, false⟩)
    (hb : s.bps s.eip = none) (hm : Mild q P s) (he : (P s.eip).ends = false) (brk : Bool) (l : List Addr) (hl : ¬ (l = [] ∧ brk = false)) :
    Rel q (body h P ⟨false, false⟩ brk (m.eip :: l) m) (G.step h P s) ∨
    ∃ m', body h P ⟨false, false⟩ brk (m.eip :: l) m = body h P ⟨false, false⟩ brk l m' ∧ Rel q m' (G.step h P s) ∧ m'.bps = m.bps ∧ m'.fl = ⟨false, false⟩ ∧
      m'.eip = s.eip + BitVec.ofNat 32 (P s.eip).len ∧ m'.dr6 = m.dr6 := by
  have hb' : (if s.fl.rf then none else s.bps s.eip) = none := by rw [hf]; exact hb
  rw [step_none h P s hb']
  unfold Mild at hm
  replace hm := hm.2
  simp only [body_cons]
  rw [show (P m.eip).act m.rest = (P s.eip).act s.rest by rw [r.eip, r.rest]]
  cases ha : (P s.eip).act s.rest with
  | raise n b rr ret =>
    rw [ha] at hm
    dsimp only at hm ⊢
    left
    exact raise_rel h n b rr ret r hm
  | done e =>
    dsimp only
    obtain ⟨p1, p2, p3⟩ := hp s.eip he s.rest e ha
    rw [if_neg hl, r.fl, r.bps, p2, p3, p1, hf]
    simp only [Option.getD_none, id]
    rw [if_neg (by decide : ¬ (false = true)), BitVec.or_zero]
    by_cases hh : e.hit = 0#4
    · rw [hh, hits_zero, or_zero4, if_neg (show ¬ (false = true ∨ 0#4 ≠ 0#4) from fun hc => hc.elim (by decide) (fun hc => hc rfl))]
      by_cases htr : m.trap = true
      · left
        rw [if_pos htr]
        exact dismiss h r htr rfl ⟨rfl, rfl, rfl, rfl, r.log, r.dr6⟩
      · right
        rw [if_neg htr]
        exact ⟨_, rfl, ⟨⟨rfl, rfl, rfl, rfl, r.log, r.dr6⟩, fun h => absurd h htr⟩, rfl, rfl, rfl, rfl⟩
    · left
      rw [if_pos (Or.inr hh)]
      unfold hits
      rw [if_neg hh]
      unfold doInt
      rw [if_pos rfl, if_pos rfl]
      have := deliver_rel (q := q) h 1 (s.eip + BitVec.ofNat 32 (P s.eip).len) (m := { m with trap := false, rest := e.rest, eip := s.eip + BitVec.ofNat 32 (P s.eip).len, fl := ⟨false, false⟩, bps := s.bps, dr6 := m.dr6 ||| e.hit.setWidth 32, idx := 1 })
        (s := { s with eip := s.eip + BitVec.ofNat 32 (P s.eip).len, rest := e.rest, bps := s.bps, fl := ⟨false, false⟩, dr6 := s.dr6 ||| e.hit.setWidth 32 }) ⟨rfl, rfl, rfl, rfl, r.log, r.dr6.or _⟩ (fun h => by cases h)
      exact ⟨⟨this.eip, this.fl, this.rest, this.bps, this.log, this.dr6⟩, fun h => by cases h⟩

/-- A whole block translated with TF and RF clear.  `brk` blocks stop before a breakpoint, whose bit of DR6 is already set. -/
theorem block_rel {q : Bool} (h : Hand σ) (P : Addr → Insn σ) (hp : Plain P) (brk : Bool) :
    ∀ (l : List Addr) (m : M σ) (s : G σ), Rel q m s → s.fl = ⟨false, false⟩ → (∀ k, Mild q P (G.runs h P k s)) → l.head? = some m.eip →
      Chain P l → (∀ a ∈ l, m.bps a = none) →
      (brk = true → ∀ z, l.getLast? = some z → (P z).ends = false ∧ ∃ i, m.bps (z + BitVec.ofNat 32 (P z).len) = some i ∧ Sup m.dr6 (s.dr6 ||| bit i)) →
      ∃ k, 1 ≤ k ∧ Rel q (body h P ⟨false, false⟩ brk l m) (G.runs h P k s) := by
  intro l
  induction l with
  | nil => intro m s _ _ _ hh; cases hh
  | cons a l ih =>
    intro m s r hf hm hh hc hn hk
    have ha : a = m.eip := by simpa using hh
    subst ha
    have hfm : m.fl = ⟨false, false⟩ := by rw [r.fl, hf]
    have hb : s.bps s.eip = none := by rw [← r.eip, ← r.bps]; exact hn _ (List.mem_cons_self ..)
    cases l with
    | nil =>
      cases brk with
      | false =>
        have := last_rel h P m s r (by rw [hf]; exact hb) (hm 0)
        rw [hfm] at this
        exact ⟨1, by omega, this⟩
      | true =>
        obtain ⟨he, i, hi, hs⟩ := hk rfl m.eip rfl
        rcases inner_rel h P hp m s r hf hb (hm 0) (by rw [← r.eip]; exact he) true [] (by rintro ⟨-, hx⟩; cases hx) with hx | ⟨m', e1, r', b', f', p', d'⟩
        · exact ⟨1, by omega, hx⟩
        · refine ⟨2, by omega, ?_⟩
          rw [e1]
          have hsb : (if (G.step h P s).fl.rf then none else (G.step h P s).bps (G.step h P s).eip) = some i := by
            rw [← r'.fl, f', ← r'.bps, ← r'.eip, p', b', ← r.eip]; exact hi
          show Rel q (deliver h 1 m'.eip m') (G.step h P (G.step h P s))
          rw [step_some h P _ i hsb, r'.eip]
          refine deliver_rel h 1 _ ⟨r'.eip, r'.fl, r'.rest, r'.bps, r'.log, ?_⟩ (fun htr => ?_)
          rotate_left
          · have hq := (r'.trap htr).1
            have hz := (hm 0).1 hq (m.eip + BitVec.ofNat 32 (P m.eip).len)
            rw [← show m.bps = (G.runs h P 0 s).bps from r.bps, hi] at hz
            cases hz
          -- the reference's DR6 did not change in the last instruction
          have hd : Sup m'.dr6 ((G.step h P s).dr6 ||| bit i) := by
            have h2 := r'.dr6
            rw [d'] at h2 ⊢
            constructor
            · intro j hj
              rw [BitVec.getLsbD_or, Bool.or_eq_true] at hj
              rcases hj with hj | hj
              · exact h2.1 j hj
              · exact hs.1 j (by rw [BitVec.getLsbD_or, hj, Bool.or_true])
            · intro j hj
              rw [BitVec.getLsbD_or, h2.2 j hj]
              by_cases h32 : j < 32
              · rw [bit_hi i ⟨j, h32⟩ hj, Bool.or_false]
              · rw [BitVec.getLsbD_of_ge (bit i) j (by omega), Bool.or_false]
          exact hd
    | cons b l =>
      obtain ⟨he, hbe, hc'⟩ := hc
      rcases inner_rel h P hp m s r hf hb (hm 0) (by rw [← r.eip]; exact he) brk (b :: l) (by rintro ⟨hx, -⟩; cases hx) with hx | ⟨m', e1, r', b', f', p', d'⟩
      · exact ⟨1, by omega, hx⟩
      · rw [e1]
        obtain ⟨k, k1, kr⟩ := ih m' (G.step h P s) r' (by rw [← r'.fl, f']) (fun k => hm (k + 1)) (by rw [p', ← r.eip, ← hbe]; rfl) hc'
          (fun x hx => by rw [b']; exact hn x (List.mem_cons_of_mem _ hx)) (by
            intro hb1 z hz
            obtain ⟨z1, i, z2, z3⟩ := hk hb1 z (by rw [List.getLast?_cons_cons]; exact hz)
            refine ⟨z1, i, by rw [b']; exact z2, ?_⟩
            have h2 := r'.dr6
            rw [d'] at h2 ⊢
            constructor
            · intro j hj
              rw [BitVec.getLsbD_or, Bool.or_eq_true] at hj
              rcases hj with hj | hj
              · exact h2.1 j hj
              · exact z3.1 j (by rw [BitVec.getLsbD_or, hj, Bool.or_true])
            · intro j hj
              rw [BitVec.getLsbD_or, h2.2 j hj]
              by_cases h32 : j < 32
              · rw [bit_hi i ⟨j, h32⟩ hj, Bool.or_false]
              · rw [BitVec.getLsbD_of_ge (bit i) j (by omega), Bool.or_false])
        exact ⟨k + 1, by omega, kr⟩

theorem gather_zero (P : Addr → Insn σ) (bp : Bps) (a : Addr) (ha : bp a = none) : gather P bp 0 a = ([a], none) := by
  unfold gather; rw [ha]

theorem gather_some (P : Addr → Insn σ) (bp : Bps) (n : Nat) (a : Addr) (i : Fin 4) (ha : bp a = some i) : gather P bp n a = ([], some i) := by
  cases n <;> (unfold gather; rw [ha])

theorem gather_succ (P : Addr → Insn σ) (bp : Bps) (n : Nat) (a : Addr) (ha : bp a = none) : gather P bp (n + 1) a =
    if (P a).ends then ([a], none) else (a :: (gather P bp n (a + BitVec.ofNat 32 (P a).len)).1, (gather P bp n (a + BitVec.ofNat 32 (P a).len)).2) := by
  rw [gather, ha]

theorem gather_spec (P : Addr → Insn σ) (bp : Bps) : ∀ (n : Nat) (a : Addr), bp a = none →
    (gather P bp n a).1.head? = some a ∧ Chain P (gather P bp n a).1 ∧ (∀ x ∈ (gather P bp n a).1, bp x = none) ∧
    ∀ i, (gather P bp n a).2 = some i → ∀ z, (gather P bp n a).1.getLast? = some z → (P z).ends = false ∧ bp (z + BitVec.ofNat 32 (P z).len) = some i := by
  intro n
  induction n with
  | zero =>
    intro a ha
    have : gather P bp 0 a = ([a], none) := gather_zero P bp a ha
    rw [this]
    exact ⟨rfl, trivial, by intro x hx; rw [List.mem_singleton.1 hx]; exact ha, by intro i hi; cases hi⟩
  | succ n ih =>
    intro a ha
    by_cases he : (P a).ends = true
    · have : gather P bp (n + 1) a = ([a], none) := by rw [gather_succ P bp n a ha, if_pos he]
      rw [this]
      exact ⟨rfl, trivial, by intro x hx; rw [List.mem_singleton.1 hx]; exact ha, by intro i hi; cases hi⟩
    · have hg : gather P bp (n + 1) a = (a :: (gather P bp n (a + BitVec.ofNat 32 (P a).len)).1, (gather P bp n (a + BitVec.ofNat 32 (P a).len)).2) := by
        rw [gather_succ P bp n a ha, if_neg he]
      have he' : (P a).ends = false := by simpa using he
      rw [hg]
      dsimp only
      cases hb : bp (a + BitVec.ofNat 32 (P a).len) with
      | some i =>
        have h2 : gather P bp n (a + BitVec.ofNat 32 (P a).len) = ([], some i) := gather_some P bp n _ i hb
        rw [h2]
        refine ⟨rfl, trivial, by intro x hx; rw [List.mem_singleton.1 hx]; exact ha, ?_⟩
        intro j hj z hz
        cases hj
        have : a = z := by simpa using hz
        subst this
        exact ⟨he', hb⟩
      | none =>
        obtain ⟨i1, i2, i3, i4⟩ := ih _ hb
        generalize gather P bp n (a + BitVec.ofNat 32 (P a).len) = g at i1 i2 i3 i4 ⊢
        obtain ⟨l, o⟩ := g
        dsimp only at i1 i2 i3 i4 ⊢
        cases l with
        | nil => cases i1
        | cons b l =>
          have hbe : b = a + BitVec.ofNat 32 (P a).len := by simpa using i1
          refine ⟨rfl, ⟨he', hbe, i2⟩, ?_, ?_⟩
          · intro x hx
            rcases List.mem_cons.1 hx with rfl | hx
            · exact ha
            · exact i3 x hx
          · intro i hi z hz
            exact i4 i hi z (by rw [List.getLast?_cons_cons] at hz; exact hz)

/-- No breakpoint appears. -/
theorem step_mono {q : Bool} (h : Hand σ) (P : Addr → Insn σ) (s : G σ) (hm : Mild q P s) (a : Addr) (ha : s.bps a = none) : (G.step h P s).bps a = none := by
  cases hb : (if s.fl.rf then none else s.bps s.eip) with
  | some i => rw [step_some h P s i hb]; exact ha
  | none =>
    rw [step_none h P s hb]
    replace hm := hm.2
    cases hx : (P s.eip).act s.rest with
    | raise n b r ret => exact ha
    | done e =>
      rw [hx] at hm
      dsimp only at hm ⊢
      split
      · exact hm.2.2 a ha
      · exact hm.2.2 a ha

theorem runs_mono {q : Bool} (h : Hand σ) (P : Addr → Insn σ) : ∀ (k : Nat) (s : G σ), (∀ k, Mild q P (G.runs h P k s)) → ∀ a, s.bps a = none → (G.runs h P k s).bps a = none := by
  intro k
  induction k with
  | zero => intro s _ a ha; exact ha
  | succ k ih => intro s hm a ha; exact ih _ (fun j => hm (j + 1)) a (step_mono h P s (hm 0) a ha)

theorem runs_add (h : Hand σ) (P : Addr → Insn σ) : ∀ (j k : Nat) (s : G σ), G.runs h P k (G.runs h P j s) = G.runs h P (j + k) s := by
  intro j
  induction j with
  | zero => intro k s; rw [Nat.zero_add]; rfl
  | succ j ih => intro k s; rw [show j + 1 + k = (j + k) + 1 by omega]; exact ih k _

theorem find_some {c : List Blk} {a : Addr} {f : Fl} {b : Blk} (h : find c a f = some b) : b ∈ c ∧ b.start = a ∧ b.fl = f := by
  unfold find at h
  refine ⟨List.mem_of_find?_eq_some h, ?_⟩
  have := List.find?_some h
  simpa using this

/-- A cached block. -/
theorem cached_rel {q : Bool} (h : Hand σ) (P : Addr → Insn σ) (hp : Plain P) (m : M σ) (s : G σ) (r : Rel q m s) (hm : ∀ k, Mild q P (G.runs h P k s))
    (b : Blk) (hc : Clean P m.bps b) (hs : b.start = m.eip) (hf : b.fl = m.fl) : ∃ k, 1 ≤ k ∧ Rel q (body h P b.fl b.brk b.code m) (G.runs h P k s) := by
  rw [hc.fl, hc.brk]
  exact block_rel h P hp false b.code m s r (by rw [← r.fl, ← hf, hc.fl]) hm (by rw [hc.head, hs]) hc.chain hc.free (by intro hx; cases hx)

theorem enter_rel {q : Bool} (h : Hand σ) (P : Addr → Insn σ) (hp : Plain P) (o : Choice) (m : M σ) (s : G σ) (c : List Blk) (r : Rel q m s)
    (hm : ∀ k, Mild q P (G.runs h P k s)) (hc : ∀ b ∈ c, Clean P m.bps b) :
    ∃ k, 1 ≤ k ∧ Rel q (enter h P o m c).1 (G.runs h P k s) ∧ ∀ b ∈ (enter h P o m c).2, Clean P m.bps b := by
  unfold enter
  have hb : (if s.fl.rf then none else s.bps s.eip) = hitBp m := by unfold hitBp; rw [r.fl, r.bps, r.eip]
  cases hx : hitBp m with
  | some i =>
    dsimp only
    refine ⟨1, by omega, ?_, hc⟩
    show Rel q _ (G.step h P s)
    rw [step_some h P s i (by rw [hb, hx]), ← r.eip]
    refine deliver_rel h 1 m.eip ⟨rfl, r.fl, r.rest, r.bps, r.log, r.dr6.or _⟩ (fun htr => ?_)
    have hq := (r.trap htr).1
    have hz := (hm 0).1 hq s.eip
    unfold hitBp at hx
    rw [← show m.bps = (G.runs h P 0 s).bps from r.bps, ← r.eip] at hz
    rw [hz] at hx
    split at hx <;> cases hx
  | none =>
    dsimp only
    cases hfd : find c m.eip m.fl with
    | some b =>
      obtain ⟨f1, f2, f3⟩ := find_some hfd
      obtain ⟨k, k1, k2⟩ := cached_rel h P hp m s r hm b (hc b f1) f2 f3
      exact ⟨k, k1, k2, hc⟩
    | none =>
      dsimp only
      by_cases h1 : (m.fl.tf || m.fl.rf) = true
      · -- one instruction
        have hbp : (if m.fl.rf then fun _ => none else m.bps) m.eip = none := by
          unfold hitBp at hx
          by_cases hr : m.fl.rf = true
          · rw [if_pos hr]
          · rw [if_neg hr] at hx ⊢; exact hx
        have hg : gather P (if m.fl.rf then fun _ => none else m.bps) 0 m.eip = ([m.eip], none) := gather_zero P _ _ hbp
        rw [if_pos h1, hg, h1]
        exact ⟨1, by omega, last_rel h P m s r (by rw [hb, hx]) (hm 0), hc⟩
      · have hz : m.fl = ⟨false, false⟩ := by
          revert h1
          cases m.fl with | mk t b => cases t <;> cases b <;> simp
        have h1' : (m.fl.tf || m.fl.rf) = false := by simpa using h1
        have hbe : m.bps m.eip = none := by unfold hitBp at hx; rw [hz] at hx; exact hx
        obtain ⟨g1, g2, g3, g4⟩ := gather_spec P m.bps o.n m.eip hbe
        rw [h1', if_neg (by decide : ¬ (false = true)), show (if m.fl.rf then fun _ => none else m.bps) = m.bps by rw [hz]; rfl]
        generalize gather P m.bps o.n m.eip = g at g1 g2 g3 g4 ⊢
        obtain ⟨l, w⟩ := g
        dsimp only at g1 g2 g3 g4 ⊢
        cases w with
        | some i =>
          dsimp only [Option.isSome]
          have hq : q = false := by
            cases q with
            | false => rfl
            | true =>
              exfalso
              cases hlast : l.getLast? with
              | none => rw [List.getLast?_eq_none_iff.1 hlast] at g1; cases g1
              | some z =>
                have hz := (hm 0).1 rfl (z + BitVec.ofNat 32 (P z).len)
                rw [← show m.bps = (G.runs h P 0 s).bps from r.bps, (g4 i rfl z hlast).2] at hz
                cases hz
          subst hq
          obtain ⟨k, k1, k2⟩ := block_rel h P hp true l _ s (r.early i) (by rw [← r.fl, hz]) hm g1 g2 g3 (by
            intro _ z hzl
            obtain ⟨z1, z2⟩ := g4 i rfl z hzl
            exact ⟨z1, i, z2, r.dr6.or _⟩)
          refine ⟨k, k1, ?_, hc⟩
          rw [hz]
          rw [hz] at k2
          exact k2
        | none =>
          dsimp only [Option.isSome]
          obtain ⟨k, k1, k2⟩ := block_rel h P hp false l m s r (by rw [← r.fl, hz]) hm g1 g2 g3 (by intro hq; cases hq)
          refine ⟨k, k1, ?_, ?_⟩
          · rw [hz]; exact k2
          · intro b hbm
            split at hbm
            · exact hc b hbm
            · rcases List.mem_cons.1 hbm with rfl | hbm
              · exact ⟨hz, rfl, g1, g2, g3⟩
              · exact hc b hbm

theorem turn_rel {q : Bool} (h : Hand σ) (P : Addr → Insn σ) (hp : Plain P) (o : Choice) (m : M σ) (s : G σ) (c : List Blk) (r : Rel q m s)
    (hm : ∀ k, Mild q P (G.runs h P k s)) (hc : ∀ b ∈ c, Clean P m.bps b) :
    ∃ k, 1 ≤ k ∧ Rel q (turn h P (m, c) o).1 (G.runs h P k s) ∧ ∀ b ∈ (turn h P (m, c) o).2, Clean P m.bps b := by
  have hc' : ∀ b ∈ c.filter o.stay, Clean P m.bps b := fun b hb => hc b (List.mem_filter.1 hb).1
  have he := enter_rel h P hp o m s (c.filter o.stay) r hm hc'
  unfold turn
  dsimp only
  split
  · cases hfd : find (c.filter o.stay) m.eip m.fl with
    | some b =>
      obtain ⟨f1, f2, f3⟩ := find_some hfd
      obtain ⟨k, k1, k2⟩ := cached_rel h P hp m s r hm b (hc' b f1) f2 f3
      exact ⟨k, k1, k2, hc'⟩
    | none => exact he
  · exact he

/-- C109: whatever blocks the code is translated and run in, the guest sees what the reference does, as long as the instructions it
runs are mild (Spec/DbgStep.lean): the same exceptions in the same order, with the same return addresses and flags, and the same state
after them.  What is missing is what Mild excludes. -/
theorem C109_step_partial (q : Bool) (h : Hand σ) (P : Addr → Insn σ) (hp : Plain P) (s : G σ) (i : Nat) (hm : ∀ k, Mild q P (G.runs h P k s))
    (c : List Blk) (hc : ∀ b ∈ c, Clean P s.bps b) (hist : List Choice) :
    ∃ n, hist.length ≤ n ∧
      Shows (hist.foldl (turn h P) (⟨s.eip, s.fl, s.rest, s.bps, s.dr6, false, i, s.log⟩, c)).1 (G.runs h P n s) := by
  have key : ∀ (hist : List Choice) (m : M σ) (s : G σ) (c : List Blk), Rel q m s → (∀ k, Mild q P (G.runs h P k s)) → (∀ b ∈ c, Clean P m.bps b) →
      ∃ n, hist.length ≤ n ∧ Rel q (hist.foldl (turn h P) (m, c)).1 (G.runs h P n s) := by
    intro hist
    induction hist with
    | nil => intro m s c r _ _; exact ⟨0, Nat.le_refl _, r⟩
    | cons o hist ih =>
      intro m s c r hm hc
      obtain ⟨k, k1, k2, k3⟩ := turn_rel h P hp o m s c r hm hc
      obtain ⟨n, n1, n2⟩ := ih (turn h P (m, c) o).1 (G.runs h P k s) (turn h P (m, c) o).2 k2 (fun j => by rw [runs_add]; exact hm _) (by
        intro b hb
        have := k3 b hb
        refine ⟨this.fl, this.brk, this.head, this.chain, fun a ha => ?_⟩
        rw [k2.bps]
        exact runs_mono h P k s hm a (by rw [← r.bps]; exact this.free a ha))
      refine ⟨k + n, ?_, ?_⟩
      · rw [List.length_cons]; omega
      · rw [← runs_add]; exact n2
  obtain ⟨n, n1, r⟩ := key hist ⟨s.eip, s.fl, s.rest, s.bps, s.dr6, false, i, s.log⟩ s c ⟨⟨rfl, rfl, rfl, rfl, rfl, ⟨fun _ h => h, fun _ _ => rfl⟩⟩, fun h => by cases h⟩ hm hc
  exact ⟨n, n1, ⟨r.eip, r.fl, r.rest, r.bps, r.log, r.dr6.1, r.dr6.2⟩⟩

namespace StepP

/-- An instruction of one byte that does nothing but go on. -/
def nop (a : Addr) (r : Nat) : Act Nat := .done ⟨r, a + 1#32, none, 0#4, id⟩
/-- A jump. -/
def jmp (b : Addr) (r : Nat) : Act Nat := .done ⟨r, b, none, 0#4, id⟩
/-- The rest of the state is one number, and pushing a frame stores the return address there. -/
def hand : Hand Nat := ⟨fun n => 0x40#32 + BitVec.ofNat 32 n, fun e _ => e.ret.toNat⟩
/-- Breakpoint 2 at 0x11. -/
def bp : Bps := fun a => if a = 0x11#32 then some 2 else none

/-- A store that hits watchpoint 1 at 0xE, then a loop from 0x10 to 0x12.  The handler of #DB returns with TF and RF set, but the first
time with both clear. -/
def prog (a : Addr) : Insn Nat :=
  if a = 0x0E#32 then ⟨1, false, fun r => .done ⟨r, 0x0F#32, none, 2#4, id⟩⟩
  else if a = 0x12#32 then ⟨1, true, jmp 0x10#32⟩
  else if a = 0x41#32 then ⟨1, true, fun r => .done ⟨r, BitVec.ofNat 32 r, some (if r = 0x0F then ⟨false, false⟩ else ⟨true, true⟩), 0#4, id⟩⟩
  else ⟨1, false, nop a⟩

def start : G Nat := ⟨0x0E#32, ⟨false, false⟩, 0, bp, 0#32, []⟩

/-- The states the reference goes through. -/
def states : List (Addr × Fl × Nat) :=
  [(0x0E#32, ⟨false, false⟩, 0), (0x41#32, ⟨false, false⟩, 0x0F), (0x0F#32, ⟨false, false⟩, 0x0F), (0x10#32, ⟨false, false⟩, 0x0F),
   (0x11#32, ⟨false, false⟩, 0x0F), (0x41#32, ⟨false, false⟩, 0x11), (0x11#32, ⟨true, true⟩, 0x11), (0x41#32, ⟨false, false⟩, 0x12),
   (0x12#32, ⟨true, true⟩, 0x12), (0x41#32, ⟨false, false⟩, 0x10), (0x10#32, ⟨true, true⟩, 0x10)]

def Through (s : G Nat) : Prop := s.bps = bp ∧ (s.eip, s.fl, s.rest) ∈ states

/-- The part of a step that DR6 and the log have no influence on. -/
def next (t : Addr × Fl × Nat) : Addr × Fl × Nat :=
  match (if t.2.1.rf then none else bp t.1) with
  | some _ => (hand.entry 1, ⟨false, false⟩, hand.push ⟨1, t.1, t.2.1⟩ t.2.2)
  | none => match (prog t.1).act t.2.2 with
    | .raise n _ r ret => (hand.entry n, ⟨false, false⟩, hand.push ⟨n, ret, t.2.1⟩ r)
    | .done e => if t.2.1.tf = true ∨ e.hit ≠ 0#4 then (hand.entry 1, ⟨false, false⟩, hand.push ⟨1, e.next, e.fl.getD ⟨t.2.1.tf, false⟩⟩ e.rest)
      else (e.next, e.fl.getD ⟨t.2.1.tf, false⟩, e.rest)

/-- The decidable part of Mild. -/
def mildB (t : Addr × Fl × Nat) : Bool :=
  match (prog t.1).act t.2.2 with
  | .raise _ b _ _ => b == 0#4
  | .done e => (!t.2.1.tf || e.hit == 0#4) && (!t.2.1.rf || match e.fl with | some f => !f.rf | none => true)

theorem next_mem : ∀ t ∈ states, next t ∈ states ∧ mildB t = true := by decide +kernel

theorem prog_bps (a : Addr) (r : Nat) (e : Eff Nat) (h : (prog a).act r = .done e) : e.bps = id := by
  unfold prog at h
  split at h
  · cases h; rfl
  · split at h
    · cases h; rfl
    · split at h
      · cases h; rfl
      · cases h; rfl

theorem through_step (s : G Nat) (h : Through s) : Through (G.step hand prog s) ∧ Mild false prog s := by
  obtain ⟨hb, hs⟩ := h
  obtain ⟨n1, n2⟩ := next_mem _ hs
  constructor
  · unfold next at n1
    dsimp only at n1
    rw [← hb] at n1
    unfold Through
    cases hx : (if s.fl.rf then none else s.bps s.eip) with
    | some i => rw [step_some hand prog s i hx]; rw [hx] at n1; exact ⟨hb, n1⟩
    | none =>
      rw [step_none hand prog s hx]
      rw [hx] at n1
      dsimp only at n1
      cases hy : (prog s.eip).act s.rest with
      | raise n b r ret => rw [hy] at n1; exact ⟨hb, n1⟩
      | done e =>
        rw [hy] at n1
        dsimp only at n1 ⊢
        rw [prog_bps _ _ _ hy]
        split at n1
        · rename_i hc; rw [if_pos hc]; exact ⟨hb, n1⟩
        · rename_i hc; rw [if_neg hc]; exact ⟨hb, n1⟩
  · unfold mildB at n2
    unfold Mild
    refine ⟨fun h => (by cases h), ?_⟩
    dsimp only at n2
    cases hy : (prog s.eip).act s.rest with
    | raise n b r ret => rw [hy] at n2; exact eq_of_beq n2
    | done e =>
      rw [hy] at n2
      dsimp only at n2 ⊢
      rw [Bool.and_eq_true, Bool.or_eq_true, Bool.or_eq_true] at n2
      refine ⟨fun ht => ?_, fun hr f hf => ?_, fun a ha => by rw [prog_bps _ _ _ hy]; exact ha⟩
      · rcases n2.1 with h | h
        · rw [ht] at h; cases h
        · exact eq_of_beq h
      · rcases n2.2 with h | h
        · rw [hr] at h; cases h
        · rw [hf] at h; simpa using h

theorem mild (k : Nat) : Mild false prog (G.runs hand prog k start) := by
  have : ∀ (k : Nat) (s : G Nat), Through s → Through (G.runs hand prog k s) := by
    intro k
    induction k with
    | zero => intro s h; exact h
    | succ k ih => intro s h; exact ih _ (through_step s h).1
  exact (through_step _ (this k start ⟨rfl, List.mem_cons_self ..⟩)).2

theorem plain : Plain prog := by
  intro a ha r e he
  unfold prog at ha he ⊢
  split at ha
  · rename_i hx; subst hx; cases he; exact ⟨rfl, rfl, rfl⟩
  · rename_i h1
    rw [if_neg h1] at he ⊢
    split at ha
    · cases ha
    · rename_i h2
      rw [if_neg h2] at he ⊢
      split at ha
      · cases ha
      · rename_i h3
        rw [if_neg h3] at he ⊢
        cases he
        exact ⟨rfl, rfl, rfl⟩

/-- Through the main loop, blocks of up to nine instructions, all kept; or through links. -/
def slow : Choice := ⟨false, 8, true, fun _ => true⟩
def fast : Choice := ⟨true, 8, true, fun _ => true⟩

-- the hypotheses of C109_step_partial are met, and the run has the watchpoint, the breakpoint and the steps
example (hist : List Choice) : ∃ n, hist.length ≤ n ∧
    Shows (hist.foldl (turn hand prog) (⟨start.eip, start.fl, start.rest, start.bps, start.dr6, false, 0, start.log⟩, [])).1 (G.runs hand prog n start) :=
  C109_step_partial false hand prog plain start 0 mild [] (by intro b hb; cases hb) hist

example : (([slow, slow, fast, slow, fast, slow, slow, slow].foldl (turn hand prog) (⟨start.eip, start.fl, start.rest, start.bps, start.dr6, false, 0, start.log⟩, [])).1.log.reverse.take 4) =
    [⟨1, 0x0F#32, ⟨false, false⟩⟩, ⟨1, 0x11#32, ⟨false, false⟩⟩, ⟨1, 0x12#32, ⟨true, false⟩⟩, ⟨1, 0x10#32, ⟨true, false⟩⟩] := by decide +kernel

/-- The reference stays where it is. -/
theorem runs_fix {σ : Type} (h : Hand σ) (P : Addr → Insn σ) (s : G σ) (hs : G.step h P s = s) : ∀ n, G.runs h P n s = s := by
  intro n
  induction n with
  | zero => rfl
  | succ n ih => show G.runs h P n (G.step h P s) = s; rw [hs, ih]

/-- If the reference stops changing after `k` instructions, it is enough to look at those. -/
theorem never {σ : Type} (h : Hand σ) (P : Addr → Insn σ) (s : G σ) (k : Nat) (hk : G.step h P (G.runs h P k s) = G.runs h P k s) (Q : G σ → Prop)
    (hq : ∀ n, n ≤ k → ¬ Q (G.runs h P n s)) (n : Nat) : ¬ Q (G.runs h P n s) := by
  by_cases hn : n ≤ k
  · exact hq n hn
  · rw [show n = k + (n - k) by omega, ← runs_add, runs_fix h P _ hk]
    exact hq k (Nat.le_refl k)

/-- The machine that starts like the reference. -/
def mach (s : G Nat) : M Nat := ⟨s.eip, s.fl, s.rest, s.bps, s.dr6, false, 0, s.log⟩

/-- The handlers stay where they are. -/
def stays (a : Addr) : Insn Nat := ⟨1, true, jmp a⟩

/-- 0x10 counts; 0x12 sets breakpoint 2 at 0x11 and goes back to 0x10 the first time, to 0x20 the second time. -/
def setProg (a : Addr) : Insn Nat :=
  if a = 0x10#32 then ⟨1, false, fun r => .done ⟨r + 1, 0x11#32, none, 0#4, id⟩⟩
  else if a = 0x11#32 then ⟨1, false, nop a⟩
  else if a = 0x12#32 then ⟨1, true, fun r => .done ⟨r, if r = 1 then 0x10#32 else 0x20#32, none, 0#4, fun _ => bp⟩⟩
  else stays a
def setStart : G Nat := ⟨0x10#32, ⟨false, false⟩, 0, fun _ => none, 0#32, []⟩

/-- 0x10 stores to a watched address, with TF set. -/
def watchProg (a : Addr) : Insn Nat := if a = 0x10#32 then ⟨1, false, fun r => .done ⟨r, 0x11#32, none, 1#4, id⟩⟩ else stays a
def watchStart : G Nat := ⟨0x10#32, ⟨true, false⟩, 0, fun _ => none, 0#32, []⟩

/-- 0x10 is an IRET to 0x11, which has a breakpoint, with RF in the frame; 0x11 goes to 0x20. -/
def rfProg (a : Addr) : Insn Nat :=
  if a = 0x10#32 then ⟨1, true, fun r => .done ⟨r, 0x11#32, some ⟨false, true⟩, 0#4, id⟩⟩
  else if a = 0x11#32 then ⟨1, true, jmp 0x20#32⟩ else stays a
def rfStart : G Nat := ⟨0x10#32, ⟨false, true⟩, 0, bp, 0#32, []⟩

/-- 0x10 faults; the breakpoint at 0x11 is not reached. -/
def faultProg (a : Addr) : Insn Nat := if a = 0x10#32 then ⟨1, false, fun r => .raise 13 0#4 r 0x10#32⟩ else stays a
def faultStart : G Nat := ⟨0x10#32, ⟨false, false⟩, 0, bp, 0#32, []⟩

/-- 0x0E stores to a watched address and faults with #GP; the handler at 0x4D has a breakpoint at its third instruction. -/
def lateProg (a : Addr) : Insn Nat :=
  if a = 0x0E#32 then ⟨1, false, fun r => .raise 13 1#4 r 0x0E#32⟩
  else if a = 0x4D#32 then ⟨1, false, nop a⟩
  else if a = 0x4E#32 then ⟨1, false, nop a⟩
  else stays a
def lateStart : G Nat := ⟨0x0E#32, ⟨false, false⟩, 0, fun a => if a = 0x4F#32 then some 3 else none, 0#32, []⟩

theorem setPlain : Plain setProg := by
  intro a ha r e he
  unfold setProg at ha he ⊢
  split at ha
  · rename_i hx; subst hx; cases he; exact ⟨rfl, rfl, rfl⟩
  · rename_i h1
    rw [if_neg h1] at he ⊢
    split at ha
    · rename_i hx; subst hx; cases he; exact ⟨rfl, rfl, rfl⟩
    · split at ha <;> cases ha

theorem faultMild (k : Nat) : Mild false faultProg (G.runs hand faultProg k faultStart) := by
  refine Classical.byContradiction fun hn => never hand faultProg faultStart 1 rfl (fun s => ¬ Mild false faultProg s) ?_ k hn
  intro n hn h
  match n, hn with
  | 0, _ => exact h ⟨fun h => (by cases h), rfl⟩
  | 1, _ => exact h ⟨fun h => (by cases h), fun _ => rfl, fun _ f h => (by cases h), fun _ h => h⟩

theorem faultPlain : Plain faultProg := by
  intro a ha r e he
  unfold faultProg at ha he
  split at ha
  · rename_i hx; rw [if_pos hx] at he; cases he
  · cases ha

/-- The same handler without a breakpoint. -/
def quietStart : G Nat := { lateStart with bps := fun _ => none }

theorem quietMild (k : Nat) : Mild true lateProg (G.runs hand lateProg k quietStart) := by
  refine Classical.byContradiction fun hn => never hand lateProg quietStart 3 rfl (fun s => ¬ Mild true lateProg s) ?_ k hn
  intro n hn h
  match n, hn with
  | 0, _ => exact h ⟨fun _ _ => rfl, (by decide : (13 : Nat) ≠ 1)⟩
  | 1, _ => exact h ⟨fun _ _ => rfl, fun _ => rfl, fun _ f h => (by cases h), fun _ h => h⟩
  | 2, _ => exact h ⟨fun _ _ => rfl, fun _ => rfl, fun _ f h => (by cases h), fun _ h => h⟩
  | 3, _ => exact h ⟨fun _ _ => rfl, fun _ => rfl, fun _ f h => (by cases h), fun _ h => h⟩

theorem latePlain : Plain lateProg := by
  intro a ha r e he
  unfold lateProg at ha he ⊢
  split at ha
  · rename_i hx; rw [if_pos hx] at he; cases he
  · rename_i h1
    rw [if_neg h1] at he ⊢
    split at ha
    · rename_i hx; subst hx; cases he; exact ⟨rfl, rfl, rfl⟩
    · rename_i h2
      rw [if_neg h2] at he ⊢
      split at ha
      · rename_i hx; subst hx; cases he; exact ⟨rfl, rfl, rfl⟩
      · cases ha

-- and with q = true: an instruction that hits a watchpoint and faults, whose trap is dismissed in the handler
example (hist : List Choice) : ∃ n, hist.length ≤ n ∧
    Shows (hist.foldl (turn hand lateProg) (mach quietStart, [])).1 (G.runs hand lateProg n quietStart) :=
  C109_step_partial true hand lateProg latePlain quietStart 0 quietMild [] (by intro b hb; cases hb) hist

example : ([slow].foldl (turn hand lateProg) (mach quietStart, [])).1.trap = true ∧
    ([slow, slow].foldl (turn hand lateProg) (mach quietStart, [])).1.trap = false ∧
    ([slow, slow, slow].foldl (turn hand lateProg) (mach quietStart, [])).1.log = [⟨13, 0x0E#32, ⟨false, false⟩⟩] := by decide +kernel

end StepP

open StepP

/-- C109 fails: a breakpoint set at an instruction of a block that is already in the cache is not seen. -/
theorem C109_cached_violation : ∃ hist : List Choice, ∀ n, ¬ Shows (hist.foldl (turn hand setProg) (mach setStart, [])).1 (G.runs hand setProg n setStart) := by
  refine ⟨[slow, slow], fun n => never hand setProg setStart 5 rfl (Shows _) ?_ n⟩
  intro n hn h
  have h1 := h.eip
  have h2 := h.log
  revert h1 h2
  match n, hn with
  | 0, _ => decide +kernel
  | 1, _ => decide +kernel
  | 2, _ => decide +kernel
  | 3, _ => decide +kernel
  | 4, _ => decide +kernel
  | 5, _ => decide +kernel

/-- C109 fails: an instruction that hits a data watchpoint while TF is set raises #DB twice, the second time in the handler. -/
theorem C109_twice_violation : ∃ hist : List Choice, (∀ n, ¬ Shows (hist.foldl (turn hand watchProg) (mach watchStart, [])).1 (G.runs hand watchProg n watchStart)) ∧
    (hist.foldl (turn hand watchProg) (mach watchStart, [])).1.log = [⟨1, 0x41#32, ⟨false, false⟩⟩, ⟨1, 0x11#32, ⟨true, false⟩⟩] := by
  refine ⟨[slow, slow], fun n => never hand watchProg watchStart 1 rfl (Shows _) ?_ n, by decide +kernel⟩
  intro n hn h
  have h2 := h.log
  revert h2
  match n, hn with
  | 0, _ => decide +kernel
  | 1, _ => decide +kernel

/-- C109 fails: an IRET that runs with RF set loses the RF it loads, and the breakpoint it returns to is raised again. -/
theorem C109_resume_violation : ∃ hist : List Choice, ∀ n, ¬ Shows (hist.foldl (turn hand rfProg) (mach rfStart, [])).1 (G.runs hand rfProg n rfStart) := by
  refine ⟨[slow, slow], fun n => never hand rfProg rfStart 2 rfl (Shows _) ?_ n⟩
  intro n hn h
  have h2 := h.log
  revert h2
  match n, hn with
  | 0, _ => decide +kernel
  | 1, _ => decide +kernel
  | 2, _ => decide +kernel

/-- Bits 0-3 of DR6 are set when the translator meets the breakpoint, even if the guest never gets there: DR6 is not the reference's,
although every instruction is mild. -/
theorem C109_dr6_violation : (∀ k, Mild false faultProg (G.runs hand faultProg k faultStart)) ∧ Plain faultProg ∧
    ∃ hist : List Choice, ∀ n, 1 ≤ n → (hist.foldl (turn hand faultProg) (mach faultStart, [])).1.log = (G.runs hand faultProg n faultStart).log ∧
      (hist.foldl (turn hand faultProg) (mach faultStart, [])).1.dr6 = 4#32 ∧ (G.runs hand faultProg n faultStart).dr6 = 0#32 := by
  refine ⟨faultMild, faultPlain, [slow], fun n hn => ?_⟩
  rw [show n = 1 + (n - 1) by omega, ← runs_add, runs_fix hand faultProg (G.runs hand faultProg 1 faultStart) rfl]
  decide +kernel

/-- C109 fails: the debug trap of an instruction that raised another exception is to be dismissed, but translating a handler with a
breakpoint in it makes it pending again, and #DB comes before the breakpoint. -/
theorem C109_revived_violation : ∃ hist : List Choice, ∀ n, ¬ Shows (hist.foldl (turn hand lateProg) (mach lateStart, [])).1 (G.runs hand lateProg n lateStart) := by
  refine ⟨[slow, slow], fun n => never hand lateProg lateStart 4 rfl (Shows _) ?_ n⟩
  intro n hn h
  have h2 := h.log
  revert h2
  match n, hn with
  | 0, _ => decide +kernel
  | 1, _ => decide +kernel
  | 2, _ => decide +kernel
  | 3, _ => decide +kernel
  | 4, _ => decide +kernel

-- C109_cached_violation is about blocks the translator makes: the rest of the hypotheses of C109_step_partial hold
example : Plain setProg := setPlain

end Verif.Step
