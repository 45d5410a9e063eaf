import Verif.Spec.EmitRun
import Verif.Props.EmitJump
/-
C104: whole executions.
-/
namespace Verif.Emit
open Host Guest Spec
open Flags

/-- More instructions after. -/
theorem Spec.Steps.trans {P : Env → Prop} {p : Prog} {base : BitVec 32} {n m : Nat} {e1 e2 e3 : BitVec 32} {g1 g2 g3 : G}
    (h1 : Steps P p base n e1 g1 e2 g2) (h2 : Steps P p base m e2 g2 e3 g3) : Steps P p base (n + m) e1 g1 e3 g3 := by
  induction h1 with
  | none => rw [Nat.zero_add]; exact h2
  | insn a b c d _ ih => rw [Nat.add_right_comm]; exact .insn a b c d (ih h2)
  | jump a b c d _ ih => rw [Nat.add_right_comm]; exact .jump a b c d (ih h2)

theorem offset_cons (x : Insn × Nat) (l : List (Insn × Nat)) (n : Nat) : offset (x :: l) (n + 1) = x.2 + offset l n := by
  simp [offset]

theorem offset_next (l : List (Insn × Nat)) : ∀ (n : Nat) (x : Insn × Nat), l[n]? = some x → offset l (n + 1) = offset l n + x.2 := by
  induction l with
  | nil => intro n x h; simp at h
  | cons y l ih =>
    intro n x h
    cases n with
    | zero => simp at h; subst h; simp [offset]
    | succ n => rw [offset_cons, offset_cons, ih n x (by simpa using h)]; omega

theorem add_off (pc : BitVec 32) (a b : Nat) : pc + BitVec.ofNat 32 (a + b) = pc + BitVec.ofNat 32 a + BitVec.ofNat 32 b := by
  rw [BitVec.ofNat_add]; grind

/-- What `gather` finds is what is there, in order. -/
theorem gather_at (p : Prog) (one : Bool) : ∀ (k : Nat) (pc : BitVec 32) (n : Nat) (x : Insn × Nat),
    (gather p one k pc).l[n]? = some x → p (pc + BitVec.ofNat 32 (offset (gather p one k pc).l n)) = some (.insn x.1 x.2) := by
  intro k
  induction k with
  | zero => intro pc n x h; simp [gather] at h
  | succ k ih =>
    intro pc n x h
    unfold gather at h ⊢
    split at h
    · simp at h
    · simp at h
    · rename_i i m hp
      split at h
      · rename_i hc
        simp only [if_pos hc]
        cases n with
        | zero => simp at h; subst h; simpa [offset] using hp
        | succ n => simp at h
      · rename_i hc
        simp only [if_neg hc]
        cases n with
        | zero => simp at h; subst h; simpa [offset] using hp
        | succ n =>
          rw [offset_cons, add_off]
          exact ih _ n x (by simpa using h)

/-- How it ends. -/
theorem gather_tail (p : Prog) (one : Bool) : ∀ (k : Nat) (pc : BitVec 32) (j : Jump) (n : Nat) (s : Bool),
    (gather p one k pc).tail = some (j, n, s) →
    cut one pc (gather p one k pc).l = false ∧
    p (pc + BitVec.ofNat 32 (offset (gather p one k pc).l (gather p one k pc).l.length)) = some (.jump j n s) := by
  intro k
  induction k with
  | zero => intro pc j n s h; simp [gather] at h
  | succ k ih =>
    intro pc j n s h
    unfold gather at h ⊢
    split at h
    · simp at h
    · rename_i hp
      simp only [Option.some.injEq, Prod.mk.injEq] at h
      obtain ⟨rfl, rfl, rfl⟩ := h
      exact ⟨rfl, by simpa [offset] using hp⟩
    · rename_i i m hp
      split at h
      · simp at h
      · rename_i hc
        simp only [if_neg hc]
        obtain ⟨a, b⟩ := ih _ j n s h
        refine ⟨?_, ?_⟩
        · unfold cut
          rw [a, Bool.or_false]
          exact Bool.eq_false_iff.mpr hc
        · rw [List.length_cons, offset_cons, add_off]; exact b

/-- The instruction stays on its page. -/
theorem stays_below {pc : BitVec 32} {n : Nat} (h : crosses pc n = false) (h1 : 1 ≤ n) (h2 : n ≤ 15) :
    (pc + BitVec.ofNat 32 n).toNat % 4096 = pc.toNat % 4096 + n := by
  unfold crosses at h
  rw [Bool.or_eq_false_iff] at h
  have hp := (page_iff _ _).mp (Decidable.not_not.mp (of_decide_eq_false h.2))
  have hn := congrArg BitVec.toNat hp
  unfold page at hn
  rw [BitVec.toNat_ushiftRight, BitVec.toNat_ushiftRight, Nat.shiftRight_eq_div_pow, Nat.shiftRight_eq_div_pow] at hn
  have e : (pc + BitVec.ofNat 32 n).toNat = (pc.toNat + n) % 2 ^ 32 := by
    rw [BitVec.toNat_add, BitVec.toNat_ofNat]; omega
  rw [e] at hn ⊢
  have := pc.isLt
  omega

/-- A page's worth of turns is enough: a block without a jump is cut, or nothing can be decoded after it. -/
theorem gather_none (p : Prog) (hs : Sized p) : ∀ (k : Nat) (pc : BitVec 32), 4096 ≤ k + pc.toNat % 4096 → (gather p false k pc).tail = none →
    cut false pc (gather p false k pc).l = true ∨
    p (pc + BitVec.ofNat 32 (offset (gather p false k pc).l (gather p false k pc).l.length)) = none := by
  intro k
  induction k with
  | zero => intro pc h _; have := Nat.mod_lt pc.toNat (show 0 < 4096 by decide); omega
  | succ k ih =>
    intro pc hk h
    unfold gather at h ⊢
    split at h
    · rename_i hp; right; simpa [offset] using hp
    · cases h
    · rename_i i m hp
      have hm := hs _ _ hp
      split at h
      · rename_i hc
        simp only [if_pos hc]
        left
        unfold cut
        rw [hc]; rfl
      · rename_i hc
        simp only [if_neg hc]
        have hc' : crosses pc m = false := by simpa using hc
        have := stays_below hc' hm.1 hm.2
        rcases ih _ (by rw [this]; have := hm.1; simp only [Decoded.len] at this; omega) h with a | a
        · left; unfold cut; rw [a, Bool.or_true]
        · right; rw [List.length_cons, offset_cons, add_off]; exact a

theorem gather_none_one (p : Prog) (k : Nat) (pc : BitVec 32) (h : (gather p true (k + 1) pc).tail = none) :
    cut true pc (gather p true (k + 1) pc).l = true ∨
    p (pc + BitVec.ofNat 32 (offset (gather p true (k + 1) pc).l (gather p true (k + 1) pc).l.length)) = none := by
  unfold gather at h ⊢
  split at h
  · rename_i hp; right; simpa [offset] using hp
  · cases h
  · rename_i i m hp
    left; rfl

/-- C104: a block is a page's worth of instructions at most: more turns of the translator's loop would find nothing more. -/
theorem C104_whole_page (p : Prog) (hs : Sized p) (one : Bool) : ∀ (k d : Nat) (pc : BitVec 32), 4096 ≤ k + pc.toNat % 4096 →
    gather p one (k + d) pc = gather p one k pc := by
  intro k
  induction k with
  | zero => intro d pc h; have := Nat.mod_lt pc.toNat (show 0 < 4096 by decide); omega
  | succ k ih =>
    intro d pc hk
    rw [Nat.add_right_comm]
    unfold gather
    split
    · rfl
    · rfl
    · rename_i i m hp
      have hm := hs _ _ hp
      split
      · rfl
      · rename_i hc
        have hc' : crosses pc m = false := by
          rw [Bool.or_eq_true, not_or] at hc; exact Bool.eq_false_iff.mpr hc.2
        have := stays_below hc' hm.1 hm.2
        rw [ih d _ (by rw [this]; have := hm.1; simp only [Decoded.len] at this; omega)]

/-- Every cached block is the program's block at its address. -/
def CacheOk (p : Prog) (c : Cache) : Prop := ∀ x ∈ c, x.2 = blockAt p false x.1

theorem fetch_ok {p : Prog} {t : Turn} {c : Cache} (h : CacheOk p c) (pc : BitVec 32) :
    (fetch p t c pc).1 = blockAt p (t.one && !hit t c pc) pc ∧ CacheOk p (fetch p t c pc).2 := by
  have h1 : CacheOk p (c.filter (fun x => !t.drop x.1)) := fun x hx => h x (List.mem_filter.mp hx).1
  unfold fetch hit
  dsimp only
  split
  · rename_i x hx
    have hm := List.mem_of_find?_eq_some hx
    have he := List.find?_some hx
    rw [hx]
    refine ⟨?_, h1⟩
    rw [h1 x hm, beq_iff_eq.mp he]
    simp
  · rename_i hx
    rw [hx]
    refine ⟨by simp, ?_⟩
    split
    · exact h1
    · rename_i ho
      intro x hx
      rcases List.mem_cons.mp hx with rfl | hx
      · have : t.one = false := by cases ht : t.one <;> simp [ht] at ho ⊢
        show blockAt p t.one pc = _
        rw [this]
      · exact h1 x hx

/-- The instructions along a path of C99 and C100 are steps of the program. -/
theorem path_steps {P : Env → Prop} {p : Prog} {base pc : BitVec 32} {es : Nat → Env} (hP : ∀ i, P (es i)) {l : List (Insn × Nat)}
    (hat : ∀ n x, l[n]? = some x → p (pc + BitVec.ofNat 32 (offset l n)) = some (.insn x.1 x.2)) {s : Nat → G} {k : Nat} {W : Nat → Prop}
    (hpath : ∀ i < k, ∃ x n, l[i]? = some (x, n) ∧ Runs (es i) (s i) x ∧ Gives (es i) (s i) (s (i + 1)) x ∧ W i) :
    Steps P p base k (pc - base) (s 0) (pc + BitVec.ofNat 32 (offset l k) - base) (s k) := by
  induction k with
  | zero =>
    have : pc + BitVec.ofNat 32 (offset l 0) - base = pc - base := by simp [offset]
    rw [this]; exact .none
  | succ k ih =>
    obtain ⟨x, n, h1, h2, h3, _⟩ := hpath k (Nat.lt_succ_self k)
    refine (ih (fun i hi => hpath i (Nat.lt_succ_of_lt hi))).trans (m := 1) ?_
    have hp := hat k _ h1
    have e1 : base + (pc + BitVec.ofNat 32 (offset l k) - base) = pc + BitVec.ofNat 32 (offset l k) := by grind
    have e2 : pc + BitVec.ofNat 32 (offset l (k + 1)) - base = pc + BitVec.ofNat 32 (offset l k) - base + BitVec.ofNat 32 n := by
      rw [offset_next l k _ h1, add_off]; grind
    rw [e2]
    exact .insn (hP k) (by rw [e1]; exact hp) h2 h3 .none

theorem jgives_fl {e : Env} {g g' : G} {t : Site} {eip : BitVec 32} {j : Jump} (h : JGives e g t g' eip j) : g'.fl = g.fl := by
  cases j with
  | jcc c rel => rw [h.1]
  | jcxz a rel => rw [h.1]
  | loop k a rel => exact h.1.flags
  | jmp rel => rw [h.1]
  | jmpRm o => rw [h.1]
  | call s rel => exact SpAt.flags h.1
  | callRm s o => exact SpAt.flags h.1
  | ret s imm => exact h.1.flags

/-- The flags word stays clean over a block. -/
theorem basic_clean {es : Nat → Env} {ctx : BitVec 64} (hctx : ∀ n, (es n).ctx = ctx) (pend : Nat → BitVec 32) (base : BitVec 32) (one : Bool)
    (pc : BitVec 32) (l : List (Insn × Nat)) (len : Nat) (size32 : Bool) (j : Jump) (h : Host.St) (hl : ∀ k x, l[k]? = some x → Legal (es k) x.1)
    (hj : JLegal (es l.length) j) (hc : h.r .rcx = ctx) (hcl : Clean h.g.fl) {eip : BitVec 32} {h' : Host.St}
    (hr : KOut.ofJump (runBasic es pend base one pc l len size32 j h) = .on eip h') : Clean h'.g.fl := by
  have hlay : ∀ k it, (layout base one pc l)[k]? = some it → Legal (es (0 + k)) it.insn := by
    intro k it hk
    obtain ⟨⟨n, hn⟩, _⟩ := C99_layout base one l pc k it hk
    rw [Nat.zero_add]
    exact hl k _ hn
  have hends := block_ends hctx pend _ 0 (pc - base) h hlay hc hcl
  unfold runBasic at hr
  generalize runBlock es pend 0 (layout base one pc l) (pc - base) h = out at hends hr
  cases out with
  | ends e1 h1 =>
    obtain ⟨c1, c2⟩ := hends e1 h1 rfl
    cases hcut : cut one pc l with
    | true => rw [hcut] at hr; cases hr; exact c2
    | false =>
      rw [hcut] at hr
      have hJ := C100_jump j ⟨e1, len, size32⟩ hj (by rw [c1, hctx]) c2
      by_cases hrun : JRuns (es l.length) h1.g ⟨e1, len, size32⟩ j
      · obtain ⟨e2, h2, d1, d2, d3⟩ := hJ.1 hrun
        rw [of_jump e1 h1 d1] at hr
        cases hr
        rw [jgives_fl d3]; exact c2
      · rw [of_fault e1 h1 (hJ.2 hrun)] at hr; cases hr
  | fault e g => cases hr
  | int e h => cases hr
  | stuck => cases hr

/-- One block. -/
theorem runBlk_follows {P : Env → Prop} {ctx : BitVec 64} {p : Prog} (hf : Fit P ctx p) (base : BitVec 32) (t : Turn) (ht : ∀ i, P (t.es i))
    (one : Bool) (pc : BitVec 32) (h : Host.St) (hc : h.r .rcx = ctx) (hcl : Clean h.g.fl) :
    match runBlk t one base pc (blockAt p one pc) h with
    | .on eip h' => (∃ n, 1 ≤ n ∧ Steps P p base n (pc - base) h.g eip h'.g) ∧ Clean h'.g.fl
    | .fault eip g => ∃ n g1, Steps P p base n (pc - base) h.g eip g1 ∧ Stops P p base eip g1 g
    | .int eip h' => ∃ n, 1 ≤ n ∧ Steps P p base n (pc - base) h.g eip h'.g ∧ ∃ i, Wanted (t.pend i) h'.g
    | .undecoded eip h' => (∃ n, Steps P p base n (pc - base) h.g eip h'.g) ∧ p (base + eip) = none
    | .stuck => False := by
  have hctx : ∀ n, (t.es n).ctx = ctx := fun n => hf.ctx _ (ht n)
  have hat := gather_at p one 4096 pc
  have hlt := gather_tail p one 4096 pc
  have hno : (gather p one 4096 pc).tail = none → cut one pc (gather p one 4096 pc).l = true ∨
      p (pc + BitVec.ofNat 32 (offset (gather p one 4096 pc).l (gather p one 4096 pc).l.length)) = none := by
    cases one
    · exact gather_none p hf.sized 4096 pc (Nat.le_add_right _ _)
    · exact gather_none_one p 4095 pc
  unfold blockAt runBlk
  generalize gather p one 4096 pc = b at hat hlt hno ⊢
  obtain ⟨l, tail⟩ := b
  dsimp only at hat hlt hno ⊢
  have hl : ∀ k x, l[k]? = some x → Legal (t.es k) x.1 := fun k x hk => hf.insn _ (ht k) _ _ _ (hat k x hk)
  have hbk : ∀ a : BitVec 32, base + (a - base) = a := fun a => by grind
  cases tail with
  | some jns =>
    obtain ⟨j, n, s⟩ := jns
    obtain ⟨hcut, hpj⟩ := hlt j n s rfl
    have hjl := hf.jump _ (ht l.length) _ _ _ _ hpj
    obtain ⟨k, st, e0, hk, hpath, hend⟩ := C100_block_partial hctx t.pend base one pc l n s j h hl hjl hc hcl
    have hcln : ∀ {eip h'}, KOut.ofJump (runBasic t.es t.pend base one pc l n s j h) = .on eip h' → Clean h'.g.fl :=
      fun hr => basic_clean hctx t.pend base one pc l n s j h hl hjl hc hcl hr
    have hsteps := path_steps (P := P) (base := base) ht hat hpath
    rw [e0] at hsteps
    dsimp only
    generalize runBasic t.es t.pend base one pc l n s j h = out at hend hcln ⊢
    cases out with
    | jumps e h' =>
      dsimp only [KOut.ofJump]
      obtain ⟨_, rfl, _, hjr, hjg, _⟩ := hend
      exact ⟨⟨l.length + 1, Nat.le_add_left _ _, hsteps.trans (.jump (ht _) (by rw [hbk]; exact hpj) hjr hjg .none)⟩, hcln rfl⟩
    | ends e h' => rw [hcut] at hend; cases hend.1
    | fault e g =>
      dsimp only [KOut.ofJump, KOut.ofEnd]
      obtain ⟨he, hx⟩ := hend
      refine ⟨k, st k, by rw [he]; exact hsteps, ?_⟩
      rcases hx with ⟨x, m, hx, hfx⟩ | ⟨rfl, hnr, hg⟩
      · exact .inl ⟨_, x, m, ht k, by rw [he, hbk]; exact hat k _ hx, hfx⟩
      · exact .inr ⟨_, j, n, s, ht _, by rw [he, hbk]; exact hpj, hnr, hg⟩
    | int e h' =>
      dsimp only [KOut.ofJump, KOut.ofEnd]
      obtain ⟨he, hg, h0, hw⟩ := hend
      exact ⟨k, h0, by rw [he, hg]; exact hsteps, _, hw⟩
    | stuck => exact hend
  | none =>
    obtain ⟨k, st, e0, hk, hpath, hend⟩ := C99_addresses_partial hctx t.pend base one pc l h hl hc hcl
    have hlay : ∀ k it, (layout base one pc l)[k]? = some it → Legal (t.es (0 + k)) it.insn := by
      intro k it hk
      obtain ⟨⟨n, hn⟩, _⟩ := C99_layout base one l pc k it hk
      rw [Nat.zero_add]
      exact hl k _ hn
    have hends := block_ends hctx t.pend _ 0 (pc - base) h hlay hc hcl
    have hsteps := path_steps (P := P) (base := base) ht hat hpath
    rw [e0] at hsteps
    dsimp only
    generalize runBlock t.es t.pend 0 (layout base one pc l) (pc - base) h = out at hend hends ⊢
    cases out with
    | ends e h' =>
      obtain ⟨hk', he, hg, _⟩ := hend
      have hcl' := (hends e h' rfl).2
      cases hcut : cut one pc l with
      | true =>
        dsimp only [KOut.ofEnd]
        refine ⟨⟨k, ?_, by rw [he, hg]; exact hsteps⟩, hcl'⟩
        cases l with
        | nil => cases hcut
        | cons x l => rw [hk']; unfold layout; split <;> simp
      | false =>
        dsimp only [KOut.ofEnd]
        have hkl : k = l.length := hk'.trans (cut_layout base one l pc hcut)
        refine ⟨⟨k, by rw [he, hg]; exact hsteps⟩, ?_⟩
        rcases hno rfl with hx | hx
        · rw [hcut] at hx; cases hx
        · rw [he, hbk, hkl]; exact hx
    | fault e g =>
      dsimp only [KOut.ofJump, KOut.ofEnd]
      obtain ⟨he, x, m, hx, hfx⟩ := hend
      exact ⟨k, st k, by rw [he]; exact hsteps, .inl ⟨_, x, m, ht k, by rw [he, hbk]; exact hat k _ hx, hfx⟩⟩
    | int e h' =>
      dsimp only [KOut.ofJump, KOut.ofEnd]
      obtain ⟨he, hg, h0, hw⟩ := hend
      exact ⟨k, h0, by rw [he, hg]; exact hsteps, _, hw⟩
    | stuck => exact hend

theorem turn_follows {P : Env → Prop} {ctx : BitVec 64} {p : Prog} (hf : Fit P ctx p) (base : BitVec 32) (t : Turn) (ht : ∀ i, P (t.es i))
    {c : Cache} (hc : CacheOk p c) (eip0 : BitVec 32) (h : Host.St) (hcl : Clean h.g.fl) :
    (match (turn ctx p base t c eip0 h).1 with
    | .on eip h' => (∃ n, 1 ≤ n ∧ Steps P p base n eip0 h.g eip h'.g) ∧ Clean h'.g.fl
    | .fault eip g => ∃ n g1, Steps P p base n eip0 h.g eip g1 ∧ Stops P p base eip g1 g
    | .int eip h' => ∃ n, 1 ≤ n ∧ Steps P p base n eip0 h.g eip h'.g ∧ ∃ w, (w = t.last ∨ ∃ i, w = t.pend i) ∧ Wanted w h'.g
    | .undecoded eip h' => (∃ n, Steps P p base n eip0 h.g eip h'.g) ∧ p (base + eip) = none
    | .stuck => False) ∧ CacheOk p (turn ctx p base t c eip0 h).2 := by
  obtain ⟨f1, f2⟩ := fetch_ok (t := t) hc (base + eip0)
  refine ⟨?_, f2⟩
  have hb := runBlk_follows hf base t ht (t.one && !hit t c (base + eip0)) (base + eip0) (entered ctx h) (by simp [entered, Host.St.set]) hcl
  unfold turn
  rw [f1]
  have e0 : base + eip0 - base = eip0 := by grind
  rw [e0] at hb
  have eg : (entered ctx h).g = h.g := rfl
  rw [eg] at hb
  dsimp only
  generalize runBlk t (t.one && !hit t c (base + eip0)) base (base + eip0) (blockAt p (t.one && !hit t c (base + eip0)) (base + eip0)) (entered ctx h) = out at hb ⊢
  cases out with
  | on eip h' =>
    have hi := intCheck_spec t.last h'
    obtain ⟨⟨n, h1, h2⟩, h3⟩ := hb
    unfold KOut.check
    dsimp only
    split
    · rename_i eip' g' heq
      split at heq
      · cases heq
      · cases heq; rw [hi.2.1]; exact ⟨⟨n, h1, h2⟩, h3⟩
    · rename_i heq; split at heq <;> cases heq
    · rename_i eip' g' heq
      split at heq
      · rename_i hw
        cases heq
        rw [hi.2.1]
        exact ⟨n, h1, h2, _, .inl rfl, hi.1.mp hw⟩
      · cases heq
    · rename_i heq; split at heq <;> cases heq
    · rename_i heq; split at heq <;> cases heq
  | fault eip g => exact hb
  | int eip h' =>
    obtain ⟨n, h1, h2, i, h3⟩ := hb
    exact ⟨n, h1, h2, _, .inr ⟨i, rfl⟩, h3⟩
  | undecoded eip h' => exact hb
  | stuck => exact hb

/-- C104, whole executions: whatever the program (of the instructions of C99 and C100), the cache's blocks, the turns and the state, running block
after block is running the program's instructions one after the other: after any number of turns the guest's EIP and state are those some number of
instructions (at least one for each turn) leads to; a fault is one of the instruction at EIP, in the state the instructions before it lead to, an
interrupt is taken between two instructions when a request is pending that is not masked, and an undecodable instruction is reported where it is.
Missing: what the partial theorems C99 and C100 miss (Legal: the instructions with other defects; `restarts`: what faulting XCHG with memory, LEAVE,
PUSHA and POPA leave). -/
theorem C104_run_partial {P : Env → Prop} {ctx : BitVec 64} {p : Prog} (hf : Fit P ctx p) (base : BitVec 32) (ts : List Turn) :
    ∀ (c : Cache) (eip : BitVec 32) (h : Host.St), (∀ t ∈ ts, ∀ i, P (t.es i)) → CacheOk p c → Clean h.g.fl →
      Shows P p base ts eip h.g (turns ctx p base ts c eip h).1 ∧ CacheOk p (turns ctx p base ts c eip h).2 := by
  induction ts with
  | nil => intro c eip h _ hc _; exact ⟨⟨0, Nat.le_refl _, .none⟩, hc⟩
  | cons t ts ih =>
    intro c eip h ht hc hcl
    have h1 := turn_follows hf base t (ht t List.mem_cons_self) hc eip h hcl
    unfold turns
    generalize turn ctx p base t c eip h = out at h1 ⊢
    obtain ⟨o, c2⟩ := out
    dsimp only at h1 ⊢
    obtain ⟨h1, hc2⟩ := h1
    cases o with
    | on eip1 g1 =>
      obtain ⟨⟨n, hn, hs⟩, hcl1⟩ := h1
      have h2 := ih c2 eip1 g1 (fun t h => ht t (List.mem_cons_of_mem _ h)) hc2 hcl1
      dsimp only
      generalize turns ctx p base ts c2 eip1 g1 = r at h2 ⊢
      obtain ⟨r, c3⟩ := r
      dsimp only at h2 ⊢
      refine ⟨?_, h2.2⟩
      replace h2 := h2.1
      cases r with
      | on e3 g3 =>
        obtain ⟨m, hm, hs2⟩ := h2
        exact ⟨n + m, by rw [List.length_cons]; omega, hs.trans hs2⟩
      | fault e3 g3 =>
        obtain ⟨m, g4, hs2, hst⟩ := h2
        exact ⟨n + m, g4, hs.trans hs2, hst⟩
      | int e3 g3 =>
        obtain ⟨m, _, hs2, t2, ht2, hw⟩ := h2
        exact ⟨n + m, by omega, hs.trans hs2, t2, List.mem_cons_of_mem _ ht2, hw⟩
      | undecoded e3 g3 =>
        obtain ⟨⟨m, hs2⟩, hu⟩ := h2
        exact ⟨⟨n + m, hs.trans hs2⟩, hu⟩
      | stuck => exact h2
    | fault e1 g1 => exact ⟨h1, hc2⟩
    | int e1 g1 =>
      obtain ⟨n, hn, hs, w, hw, hx⟩ := h1
      exact ⟨⟨n, hn, hs, t, List.mem_cons_self, w, hw, hx⟩, hc2⟩
    | undecoded e1 g1 => exact ⟨h1, hc2⟩
    | stuck => exact absurd h1 (fun h => h)

/-- C104, the code cache is invisible: whatever correct blocks it holds at first, and whatever is dropped from it between the blocks (purges, flushes,
everything), the execution ends in the same way and the same state. -/
theorem C104_cache (ctx : BitVec 64) (p : Prog) (base : BitVec 32) (d : Turn → BitVec 32 → Bool) (ts : List Turn) :
    ∀ (c c' : Cache) (eip : BitVec 32) (h : Host.St), (∀ t ∈ ts, t.one = false) → CacheOk p c → CacheOk p c' →
      (turns ctx p base ts c eip h).1 = (turns ctx p base (ts.map (fun t => { t with drop := d t })) c' eip h).1 := by
  induction ts with
  | nil => intro c c' eip h _ _ _; rfl
  | cons t ts ih =>
    intro c c' eip h ht hc hc'
    have f1 := fetch_ok (t := t) hc (base + eip)
    have f2 := fetch_ok (t := { t with drop := d t }) hc' (base + eip)
    have e : (turn ctx p base t c eip h).1 = (turn ctx p base { t with drop := d t } c' eip h).1 := by
      unfold turn
      rw [f1.1, f2.1]
      simp only [ht t List.mem_cons_self, Bool.false_and]
      rfl
    rw [List.map_cons]
    unfold turns
    rw [← e]
    have k1 : CacheOk p (turn ctx p base t c eip h).2 := f1.2
    have k2 : CacheOk p (turn ctx p base { t with drop := d t } c' eip h).2 := f2.2
    generalize (turn ctx p base t c eip h).2 = x at k1 ⊢
    generalize (turn ctx p base { t with drop := d t } c' eip h).2 = y at k2 ⊢
    generalize (turn ctx p base t c eip h).1 = o
    cases o with
    | on e1 g1 => exact ih x y e1 g1 (fun t h => ht t (List.mem_cons_of_mem _ h)) k1 k2
    | _ => rfl

/-- A program: `add eax, ebx; loop` back to it; `push eax`, then nothing. -/
def exProg : Prog := fun a =>
  if a = 0x1000#32 then some (.insn (.rm (.alu .add .d (.rmR ⟨3, false⟩)) (.reg ⟨0, false⟩)) 2)
  else if a = 0x1002#32 then some (.jump (.loop .loop true (BitVec.ofInt 64 (-4))) 2 true)
  else if a = 0x1004#32 then some (.insn (.rm (.push ⟨true, false⟩ .d) (.reg ⟨0, false⟩)) 1)
  else none

def exTurn : Turn := ⟨false, fun _ => exEnv, fun _ => 0#32, 0#32, fun _ => false⟩

/-- Kind of end, EIP, EAX, ECX, ESP. -/
def exKind : KOut → List Nat
  | .on e h => [0, e.toNat, (h.g.gpr 0).toNat, (h.g.gpr 1).toNat, (h.g.gpr 4).toNat]
  | .fault e g => [1, e.toNat, (g.gpr 0).toNat, (g.gpr 1).toNat, (g.gpr 4).toNat]
  | .int e h => [2, e.toNat, (h.g.gpr 0).toNat, (h.g.gpr 1).toNat, (h.g.gpr 4).toNat]
  | .undecoded e h => [3, e.toNat, (h.g.gpr 0).toNat, (h.g.gpr 1).toNat, (h.g.gpr 4).toNat]
  | .stuck => [4]

def exThree : Host.St := { exSt with g := { exSt.g with gpr := fun i => if i = 1 then 3#32 else exSt.g.gpr i } }

/-- The loop runs three times, twice from the cache, and the block after it ends at the undecodable instruction. -/
example : exKind (turns 0x1000#64 exProg 0#32 [exTurn, exTurn] [] 0x1000#32 exThree).1 = [0, 0x1000, 0x301, 1, 0] ∧
    exKind (turns 0x1000#64 exProg 0#32 (List.replicate 4 exTurn) [] 0x1000#32 exThree).1 = [3, 0x1005, 0x302, 0, 0xFFFFFFFC] ∧
    (turns 0x1000#64 exProg 0#32 (List.replicate 4 exTurn) [] 0x1000#32 exThree).2.length = 2 := by decide +kernel

/-- One instruction at a time; an interrupt in the second block. -/
example : exKind (turns 0x1000#64 exProg 0#32 (List.replicate 3 { exTurn with one := true }) [] 0x1000#32 exThree).1 = [0, 0x1002, 0x301, 2, 0] ∧
    exKind (turns 0x1000#64 exProg 0#32 [exTurn, { exTurn with pend := fun _ => 4#32 }] [] 0x1000#32 exThree).1 = [2, 0x1002, 0x301, 2, 0] := by decide +kernel

/-- The hypotheses of C104_run_partial. -/
example : Fit (fun e => e = exEnv) 0x1000#64 exProg ∧ CacheOk exProg [] ∧ Clean exThree.g.fl := by
  refine ⟨⟨?_, ?_, ?_, ?_⟩, (by intro x hx; cases hx), by unfold Clean; decide⟩
  · rintro e rfl; rfl
  · rintro e rfl a i n h
    unfold exProg at h
    split at h
    · cases h; exact ⟨by simp [Sizes], rfl⟩
    · split at h
      · cases h
      · split at h
        · cases h; exact ⟨⟨.inr rfl, by intro hf; cases hf⟩, rfl⟩
        · cases h
  · rintro e rfl a j n s h
    unfold exProg at h
    split at h
    · cases h
    · split at h
      · cases h; trivial
      · split at h <;> cases h
  · intro a o h
    unfold exProg at h
    split at h
    · cases h; exact ⟨by decide, by decide⟩
    · split at h
      · cases h; exact ⟨by decide, by decide⟩
      · split at h
        · cases h; exact ⟨by decide, by decide⟩
        · cases h

/-- The bytes of a block's instructions. -/
def Spec.blkBytes (b : Blk) : Nat := offset b.l b.l.length + (match b.tail with | some (_, n, _) => n | none => 0)

theorem over_below {pc : BitVec 32} {n : Nat} (h : over pc n = false) (h1 : 1 ≤ n) (h2 : n ≤ 15) : pc.toNat % 4096 + n ≤ 4096 := by
  unfold over at h
  have hp := (page_iff _ _).mp (Decidable.not_not.mp (of_decide_eq_false h))
  have hn := congrArg BitVec.toNat hp
  unfold page at hn
  rw [BitVec.toNat_ushiftRight, BitVec.toNat_ushiftRight, Nat.shiftRight_eq_div_pow, Nat.shiftRight_eq_div_pow] at hn
  have e : (pc + BitVec.ofNat 32 n - 1#32).toNat = (pc.toNat + (n - 1)) % 2 ^ 32 := by
    have e1 : (1#32).toNat = 1 := rfl
    have e2 : (BitVec.ofNat 32 n).toNat = n := by rw [BitVec.toNat_ofNat]; omega
    rw [BitVec.toNat_sub, BitVec.toNat_add, e1, e2]
    omega
  rw [e] at hn
  have := pc.isLt
  omega

theorem gather_page (p : Prog) (hs : Sized p) (one : Bool) : ∀ (k : Nat) (pc : BitVec 32),
    anyOver pc (gather p one k pc).l (gather p one k pc).tail = false → pc.toNat % 4096 + blkBytes (gather p one k pc) ≤ 4096 := by
  intro k
  induction k with
  | zero => intro pc _; simp [gather, blkBytes, offset]; omega
  | succ k ih =>
    intro pc h
    unfold gather at h ⊢
    split at h
    · simp [blkBytes, offset]; omega
    · rename_i j n s hp
      simp only [anyOver] at h
      have := hs _ _ hp
      simp only [blkBytes, offset, List.length_nil, List.take_nil, List.map_nil, List.sum_nil, Nat.zero_add]
      exact over_below h this.1 this.2
    · rename_i i n hp
      have := hs _ _ hp
      split at h
      · rename_i hc
        simp only [if_pos hc]
        simp only [anyOver, Bool.or_false] at h
        have := over_below h this.1 this.2
        simpa [blkBytes, offset] using this
      · rename_i hc
        simp only [if_neg hc]
        simp only [anyOver, Bool.or_eq_false_iff] at h
        have a := ih _ h.2
        have b := stays_below (Bool.or_eq_false_iff.mp (Bool.eq_false_iff.mpr hc)).2 this.1 this.2
        rw [b] at a
        simp only [blkBytes, List.length_cons, offset_cons] at a ⊢
        omega

/-- C104, the part self-modifying code relies on: whatever was executed, all bytes of a block in the cache are on the page of its address. -/
theorem C104_cached_one_page (ctx : BitVec 64) (p : Prog) (hs : Sized p) (base : BitVec 32) (ts : List Turn) :
    ∀ (c : Cache) (eip : BitVec 32) (h : Host.St), (∀ x ∈ c, x.1.toNat % 4096 + blkBytes x.2 ≤ 4096) →
      ∀ x ∈ (turns ctx p base ts c eip h).2, x.1.toNat % 4096 + blkBytes x.2 ≤ 4096 := by
  induction ts with
  | nil => intro c eip h hc; exact hc
  | cons t ts ih =>
    intro c eip h hc
    have hf : ∀ x ∈ (turn ctx p base t c eip h).2, x.1.toNat % 4096 + blkBytes x.2 ≤ 4096 := by
      have hc1 : ∀ x ∈ c.filter (fun x => !t.drop x.1), x.1.toNat % 4096 + blkBytes x.2 ≤ 4096 := fun x hx => hc x (List.mem_filter.mp hx).1
      intro x hx
      simp only [turn, fetch] at hx
      split at hx
      · exact hc1 x hx
      · split at hx
        · exact hc1 x hx
        · rename_i ho
          rcases List.mem_cons.mp hx with rfl | hx
          · exact gather_page p hs _ _ _ (Bool.or_eq_false_iff.mp (Bool.eq_false_iff.mpr ho)).2
          · exact hc1 x hx
    unfold turns
    generalize (turn ctx p base t c eip h).2 = y at hf ⊢
    generalize (turn ctx p base t c eip h).1 = o
    cases o with
    | on e1 g1 => exact ih y e1 g1 hf
    | _ => exact hf

-- two instructions and the jump at 0x1000 are cached, 4 bytes; from the last byte of a page an instruction of 2 is not
example : Sized exProg := by
  intro a o h
  unfold exProg at h
  repeat' split at h
  all_goals first | (cases h; decide) | cases h
example : ((turns 0x1000#64 exProg 0#32 [exTurn, exTurn] [] 0x1000#32 exThree).2.map (fun x => (x.1.toNat, blkBytes x.2))) = [(0x1000, 4)] := by decide +kernel
example : ((turns 0x1000#64 (fun a => exProg (a + 1#32)) 0#32 [exTurn, exTurn] [] 0xFFF#32 exThree).2.map (fun x => (x.1.toNat, blkBytes x.2))) = [(0x1001, 2)] := by decide +kernel

end Verif.Emit
