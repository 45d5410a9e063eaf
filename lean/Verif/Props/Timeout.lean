import Verif.Model.Clock
/-
C53: cpu_run_until and its deadline.
-/
namespace Verif.Clock

/-- Specification: the deadline, a host time, is reached. -/
def Reached (start timeout : BitVec 64) (now : BitVec 64) : Prop := start.toNat + timeout.toNat ≤ now.toNat

/-- Every clock reading of a run is at or after its start (the clock is monotonic). -/
structure After (start : BitVec 64) (polls : List (Poll × BitVec 64)) (l : List Run) : Prop where
  polls : ∀ p ∈ polls, start.toNat ≤ p.2.toNat
  now : ∀ r ∈ l, start.toNat ≤ r.now.toNat
  inner : ∀ r ∈ l, ∀ p ∈ r.polls, start.toNat ≤ p.2.toNat

theorem fires_iff (start timeout now : BitVec 64) (h : start.toNat ≤ now.toNat) :
    timerFires ⟨start, timeout⟩ now = true ↔ Reached start timeout now := by
  have hs : (now - start).toNat = now.toNat - start.toNat := by
    rw [BitVec.toNat_sub]
    have := start.isLt; have := now.isLt
    omega
  simp only [timerFires, decide_eq_true_eq, hs, Reached]
  omega

theorem hltLoop_exit {start timeout : BitVec 64} {check h : Bool} : ∀ {polls : List (Poll × BitVec 64)},
    (∀ p ∈ polls, start.toNat ≤ p.2.toNat) → hltLoop ⟨start, timeout⟩ check polls = some (h, true) →
    ∃ p ∈ polls, Reached start timeout p.2 := by
  intro polls
  induction polls with
  | nil => intro _ hh; simp [hltLoop] at hh
  | cons p l ih =>
    intro ha hh
    obtain ⟨p, now⟩ := p
    simp only [hltLoop] at hh
    have hf : ∀ (b : Bool), (check && timerFires ⟨start, timeout⟩ now) = b → b = true → Reached start timeout now := by
      intro b hb ht
      rw [← hb] at ht
      exact (fires_iff start timeout now (ha _ List.mem_cons_self)).mp (Bool.and_eq_true_iff.mp ht).2
    split at hh
    · injection hh with hh
      have := congrArg Prod.snd hh
      exact ⟨_, List.mem_cons_self, hf _ this rfl⟩
    · split at hh
      · exact ⟨_, List.mem_cons_self, hf _ (by assumption) rfl⟩
      · obtain ⟨q, hq, hr⟩ := ih (fun q hq => ha q (List.mem_cons_of_mem _ hq)) hh
        exact ⟨q, List.mem_cons_of_mem _ hq, hr⟩

theorem pick_timer {c c1 : Cpu} {p : Pick} {b : Block} (h : pickBlock c p = some (c1, b)) :
    c1.timer = c.timer ∧ c1.exitReq = c.exitReq ∧ c1.timeoutFlag = c.timeoutFlag ∧ c1.direct = c.direct ∧ c1.rsb = c.rsb := by
  cases p with
  | cached i =>
    simp only [pickBlock, Option.map_eq_some_iff] at h
    obtain ⟨a, _, h⟩ := h
    cases h; exact ⟨rfl, rfl, rfl, rfl, rfl⟩
  | fresh k => simp only [pickBlock, Option.some.injEq] at h; cases h; exact ⟨rfl, rfl, rfl, rfl, rfl⟩

theorem end_timer (c : Cpu) (b : Block) (r : Run) : (blockEnd c b r).timer = c.timer ∧
    (blockEnd c b r).timeoutFlag = c.timeoutFlag ∧ (blockEnd c b r).cache = c.cache := by
  unfold blockEnd
  split
  · exact ⟨rfl, rfl, rfl⟩
  · exact ⟨rfl, rfl, rfl⟩
  · exact ⟨rfl, rfl, rfl⟩
  · exact ⟨rfl, rfl, rfl⟩
  · unfold retEnd; split <;> exact ⟨rfl, rfl, rfl⟩
  · exact ⟨rfl, rfl, rfl⟩

theorem block_timer {c c1 : Cpu} {b : Block} {r : Run} (h : runBlock c b r = some c1) :
    c1.timer = c.timer ∧ c1.timeoutFlag = c.timeoutFlag ∧ c1.cache = c.cache := by
  unfold runBlock at h
  split at h
  · split at h
    · cases h
    · cases h; exact ⟨rfl, rfl, rfl⟩
  · cases h; exact end_timer _ b r

theorem end_exit (c : Cpu) (b : Block) (r : Run) :
    (blockEnd c b r).exitReq = c.exitReq ∨ (blockEnd c b r).exitReq = (c.exitReq || (b.timer && timerFires c.timer r.now)) := by
  unfold blockEnd
  split
  · exact .inl rfl
  · exact .inl rfl
  · exact .inl rfl
  · exact .inr rfl
  · unfold retEnd; split <;> exact .inr rfl
  · exact .inr rfl

theorem block_exit {c c1 : Cpu} {b : Block} {r : Run} {start timeout : BitVec 64}
    (hc : c.timer = ⟨start, timeout⟩) (h0 : c.exitReq = false) (hn : start.toNat ≤ r.now.toNat)
    (hp : ∀ p ∈ r.polls, start.toNat ≤ p.2.toNat) (h : runBlock c b r = some c1) (he : c1.exitReq = true) :
    Reached start timeout r.now ∨ ∃ p ∈ r.polls, Reached start timeout p.2 := by
  unfold runBlock at h
  split at h
  · split at h
    · cases h
    · rename_i hl
      cases h
      simp only [h0, Bool.false_or] at he
      subst he
      rw [hc] at hl
      exact .inr (hltLoop_exit hp hl)
  · cases h
    rcases end_exit { c with rsb := c.rsb - r.lost } b r with hf | hf
    · rw [hf] at he; rw [show c.exitReq = true from he] at h0; cases h0
    · rw [hf] at he
      simp only [h0, hc, Bool.false_or] at he
      exact .inl ((fires_iff _ _ _ hn).mp (Bool.and_eq_true_iff.mp he).2)

theorem loop_not_before {start timeout : BitVec 64} : ∀ (l : List Run) (c : Cpu), c.timer = ⟨start, timeout⟩ →
    (∀ r ∈ l, start.toNat ≤ r.now.toNat) → (∀ r ∈ l, ∀ p ∈ r.polls, start.toNat ≤ p.2.toNat) →
    (mainLoop true c l).2 = .timeout → c.exitReq = true ∨
      (∃ r ∈ l, Reached start timeout r.now ∨ ∃ p ∈ r.polls, Reached start timeout p.2) := by
  intro l
  induction l with
  | nil =>
    intro c _ _ _ h
    cases he : c.exitReq
    · simp [mainLoop, he] at h
    · exact .inl rfl
  | cons r l ih =>
    intro c hc hn hp h
    cases he : c.exitReq
    · right
      simp only [mainLoop, he, Bool.and_false, Bool.false_and, Bool.false_eq_true, if_false] at h
      split at h
      · cases h
      · rename_i c1 b hk
        split at h
        · cases h
        · rename_i c2 hb
          obtain ⟨e1, e2, _⟩ := pick_timer hk
          obtain ⟨e3, _, _⟩ := block_timer hb
          rcases ih c2 (by rw [e3, e1, hc]) (fun r hr => hn r (List.mem_cons_of_mem _ hr))
            (fun r hr => hp r (List.mem_cons_of_mem _ hr)) h with hx | ⟨r', hr', hx⟩
          · exact ⟨r, List.mem_cons_self, block_exit (by rw [e1, hc]) (by rw [e2, he]) (hn r List.mem_cons_self)
              (hp r List.mem_cons_self) hb hx⟩
          · exact ⟨r', List.mem_cons_of_mem _ hr', hx⟩
    · exact .inl rfl

/-- C53: cpu_run_until never returns `timeout` early: whatever the cpu's state and whatever runs, if it
returns `timeout` then the clock was seen at or past the deadline. -/
theorem C53_not_before (c : Cpu) (timeout now : BitVec 64) (polls : List (Poll × BitVec 64)) (l : List Run)
    (ha : After now polls l) (h : (runUntil c timeout now polls l).2 = .timeout) :
    (∃ p ∈ polls, Reached now timeout p.2) ∨ (∃ r ∈ l, Reached now timeout r.now ∨ ∃ p ∈ r.polls, Reached now timeout p.2) := by
  unfold runUntil at h
  dsimp only at h
  split at h
  · split at h
    · cases h
    · rename_i e hl
      left
      replace hl : hltLoop ⟨now, timeout⟩ true polls = some (true, e) := hl
      refine hltLoop_exit (h := true) (check := true) ha.polls ?_
      rw [hl]
      congr 2
      revert hl
      clear ha h
      induction polls with
      | nil => intro hl; simp [hltLoop] at hl
      | cons p q ih =>
        intro hl
        simp only [hltLoop] at hl
        split at hl
        · cases hl
        · split at hl
          · cases hl; rfl
          · exact ih hl
    · rename_i e hl
      rcases loop_not_before (start := now) (timeout := timeout) l _ rfl ha.now ha.inner h with hx | hx
      · dsimp only at hx
        subst hx
        exact .inl (hltLoop_exit ha.polls hl)
      · exact .inr hx
  · rcases loop_not_before (start := now) (timeout := timeout) l _ rfl ha.now ha.inner h with hx | hx
    · cases hx
    · exact .inr hx

/-- The full property of the other direction: the run ends no later than the first block that ends (or
HLT that waits) at or past the deadline. -/
def ReturnsInTime (c : Cpu) (timeout now : BitVec 64) (l : List Run) : Prop :=
  (mainLoop true (armed c timeout now) l).2 = .running →
  ∀ br ∈ ran true (armed c timeout now) l,
    (br.1.kind ≠ .hlt → ¬Reached now timeout br.2.now) ∧
    (br.1.kind = .hlt → (∀ p ∈ br.2.polls, p.1 ≠ .hw) → ∀ p ∈ br.2.polls, ¬Reached now timeout p.2)

/-- The blocks that can check the timer: all but those that end with an exception or single step. -/
def Timed (k : Kind) : Prop := k ≠ .raises ∧ k ≠ .stepping

/-- Every cached block that can check the timer does. -/
def TimerCode (c : Cpu) : Prop := ∀ b ∈ c.cache, Timed b.kind → b.timer = true

theorem timer_pick {c c1 : Cpu} {p : Pick} {b : Block} (hf : c.timeoutFlag = true) (hc : TimerCode c)
    (h : pickBlock c p = some (c1, b)) : TimerCode c1 ∧ (Timed b.kind → b.timer = true) := by
  cases p with
  | cached i =>
    simp only [pickBlock, Option.map_eq_some_iff] at h
    obtain ⟨a, ha, h⟩ := h
    cases h
    exact ⟨hc, hc _ (List.mem_of_getElem? ha)⟩
  | fresh k =>
    simp only [pickBlock, Option.some.injEq] at h
    cases h
    have hb : Timed (translate c.timeoutFlag k).kind → (translate c.timeoutFlag k).timer = true := by
      rw [hf]; cases k <;> simp [translate, Timed]
    refine ⟨?_, hb⟩
    intro b hb'
    rcases List.mem_append.mp hb' with h | h
    · exact hc b h
    · rw [List.mem_singleton.mp h]; exact hb

theorem timer_loop : ∀ (l : List Run) (u : Bool) (c : Cpu), c.timeoutFlag = true → TimerCode c →
    (mainLoop u c l).1.timeoutFlag = true ∧ TimerCode (mainLoop u c l).1 := by
  intro l
  induction l with
  | nil => intro u c hf hc; unfold mainLoop; split <;> exact ⟨hf, hc⟩
  | cons r l ih =>
    intro u c hf hc
    unfold mainLoop
    split
    · exact ⟨hf, hc⟩
    · split
      · exact ⟨hf, hc⟩
      · rename_i c1 b hk
        have h1 := timer_pick hf hc hk
        have h2 := pick_timer hk
        split
        · exact ⟨by rw [h2.2.2.1, hf], h1.1⟩
        · rename_i c2 hb
          have h3 := block_timer hb
          exact ih u c2 (by rw [h3.2.1, h2.2.2.1, hf]) (fun b hb' => h1.1 b (h3.2.2 ▸ hb'))

/-- Histories in which only cpu_run_until is used to run guest code (cpu_run afterwards is rejected and
so harmless). -/
theorem calls_timer : ∀ (l : List Call) (c : Cpu), TimerCode c → (c.timeoutFlag = true ∨ ∀ q ∈ l, ∃ a b d e, q = .runUntil a b d e) →
    TimerCode (calls c l) := by
  intro l
  induction l with
  | nil => intro c hc _; exact hc
  | cons q l ih =>
    intro c hc hq
    show TimerCode (calls (call c q) l)
    have key : ∀ a b d e, q = .runUntil a b d e → TimerCode (call c q) ∧ (call c q).timeoutFlag = true := by
      rintro t now polls rs rfl
      simp only [call, runUntil]
      split
      · split
        · exact ⟨hc, rfl⟩
        · exact ⟨hc, rfl⟩
        · have := timer_loop rs true { armed c t now with exitReq := ‹Bool›, halted := false } rfl hc
          exact ⟨this.2, this.1⟩
      · have := timer_loop rs true (armed c t now) rfl hc
        exact ⟨this.2, this.1⟩
    cases q with
    | run rs =>
      rcases hq with hq | hq
      · have : call c (.run rs) = c := by simp [call, runForever, hq]
        rw [this]
        exact ih c hc (.inl hq)
      · obtain ⟨a, b, d, e, h⟩ := hq _ List.mem_cons_self
        cases h
    | runUntil t now polls rs =>
      have := key t now polls rs rfl
      exact ih _ this.1 (.inl this.2)

theorem hltLoop_none {t : Timer} : ∀ {polls : List (Poll × BitVec 64)}, hltLoop t true polls = none →
    ∀ p ∈ polls, timerFires t p.2 = false := by
  intro polls
  induction polls with
  | nil => intro _ p hp; cases hp
  | cons q l ih =>
    intro h p hp
    obtain ⟨a, now⟩ := q
    simp only [hltLoop, Bool.true_and] at h
    split at h
    · cases h
    · split at h
      · cases h
      · rename_i hf
        rcases List.mem_cons.mp hp with rfl | hp
        · exact Bool.eq_false_iff.mpr hf
        · exact ih h p hp

theorem hltLoop_some {t : Timer} {h : Bool} : ∀ {polls : List (Poll × BitVec 64)}, (∀ p ∈ polls, p.1 ≠ .hw) →
    hltLoop t true polls ≠ some (h, false) := by
  intro polls
  induction polls with
  | nil => intro _ h; simp [hltLoop] at h
  | cons q l ih =>
    intro hp hh
    obtain ⟨a, now⟩ := q
    simp only [hltLoop, Bool.true_and] at hh
    rw [if_neg (hp _ List.mem_cons_self)] at hh
    split at hh
    · cases hh
    · exact ih (fun p h => hp p (List.mem_cons_of_mem _ h)) hh

/-- A jump or call that sees the timer fire goes back to the main loop. -/
theorem jump_leaves {c : Cpu} {b : Block} {r : Run} (hk : b.kind = .linked ∨ b.kind = .call) (hi : r.next ≠ .interrupt)
    (ht : b.timer = true) (hf : timerFires c.timer r.now = true) :
    (blockEnd c b r).exitReq = true ∧ (blockEnd c b r).direct = false := by
  rcases hk with hk | hk <;> cases hn : r.next <;>
    simp_all [blockEnd, jumpEnd, checked, pushed]

theorem stop (l : List Run) (c : Cpu) (he : c.exitReq = true) (hd : c.direct = false) :
    (mainLoop true c l).2 = .timeout := by
  cases l <;> simp [mainLoop, he, hd]

theorem loop_in_time {start timeout : BitVec 64} : ∀ (l : List Run) (c : Cpu), c.timer = ⟨start, timeout⟩ →
    c.timeoutFlag = true → TimerCode c →
    (∀ r ∈ l, start.toNat ≤ r.now.toNat) → (∀ r ∈ l, ∀ p ∈ r.polls, start.toNat ≤ p.2.toNat) →
    (mainLoop true c l).2 = .running → ∀ br ∈ ran true c l,
      (br.1.kind = .linked ∨ br.1.kind = .call → br.2.next ≠ .interrupt → ¬Reached start timeout br.2.now) ∧
      (br.1.kind = .hlt → (∀ p ∈ br.2.polls, p.1 ≠ .hw) → ∀ p ∈ br.2.polls, ¬Reached start timeout p.2) := by
  intro l
  induction l with
  | nil => intro c _ _ _ _ _ _ br hbr; cases hbr
  | cons r l ih =>
    intro c hc hf ht hn hp h br hbr
    unfold mainLoop at h
    unfold ran at hbr
    split at h
    · cases h
    · rename_i hx
      rw [if_neg hx] at hbr
      split at h
      · rename_i hk; simp only [hk] at hbr; cases hbr
      · rename_i c1 b hk
        simp only [hk] at hbr
        have h1 := timer_pick hf ht hk
        have h2 := pick_timer hk
        have hc1 : c1.timer = ⟨start, timeout⟩ := by rw [h2.1, hc]
        have hnr := hn r List.mem_cons_self
        have hpr := hp r List.mem_cons_self
        split at h
        · rename_i hb
          simp only [hb, List.mem_singleton] at hbr
          subst hbr
          dsimp only
          unfold runBlock at hb
          split at hb
          · rename_i hkind
            split at hb
            · rename_i hl
              rw [h1.2 (by rw [hkind]; exact ⟨by decide, by decide⟩), hc1] at hl
              refine ⟨fun h => (by rw [hkind] at h; rcases h with h | h <;> cases h), fun _ _ p hp' hr => ?_⟩
              have := hltLoop_none hl p hp'
              rw [(fires_iff _ _ _ (hpr p hp')).mpr hr] at this
              cases this
            · cases hb
          · cases hb
        · rename_i c2 hb
          simp only [hb, List.mem_cons] at hbr
          have h3 := block_timer hb
          rcases hbr with rfl | hbr
          · dsimp only
            unfold runBlock at hb
            split at hb
            · rename_i hkind
              refine ⟨fun h => (by rw [hkind] at h; rcases h with h | h <;> cases h), fun _ hno => ?_⟩
              split at hb
              · cases hb
              · rename_i hh e hl
                rw [h1.2 (by rw [hkind]; exact ⟨by decide, by decide⟩)] at hl
                cases hb
                cases e
                · exact absurd hl (hltLoop_some hno)
                · rw [stop l _ (Bool.or_true _) rfl] at h; cases h
            · rename_i hkind
              refine ⟨fun hlk hi hr => ?_, fun h => absurd h hkind⟩
              cases hb
              have hfr : timerFires c1.timer r.now = true := by rw [hc1]; exact (fires_iff _ _ _ hnr).mpr hr
              have htm : b.timer = true := h1.2 (by rcases hlk with e | e <;> rw [e] <;> exact ⟨by decide, by decide⟩)
              have hj := jump_leaves (c := { c1 with rsb := c1.rsb - r.lost }) hlk hi htm hfr
              rw [stop l _ hj.1 hj.2] at h; cases h
          · exact ih c2 (by rw [h3.1, hc1]) (by rw [h3.2.1, h2.2.2.1, hf]) (fun b hb' => h1.1 b (h3.2.2 ▸ hb'))
              (fun r hr => hn r (List.mem_cons_of_mem _ hr)) (fun r hr => hp r (List.mem_cons_of_mem _ hr)) h br hbr

/-- C53, the part that holds: when the guest has only ever been run with cpu_run_until, the call returns
`timeout` no later than the first block ending in a jump, call or page end without a pending interrupt, or
HLT, that is at or past the deadline. Missing: blocks that end with an exception, a pending interrupt or a
single step do not look at the timer, returns look at it and go on (see C53_delay_partial), and code
translated by cpu_run never does (see the violations). -/
theorem C53_returns_partial (hist : List Call) (hh : ∀ q ∈ hist, ∃ a b d e, q = .runUntil a b d e)
    (timeout now : BitVec 64) (l : List Run) (ha : After now [] l)
    (h : (mainLoop true (armed (calls create hist) timeout now) l).2 = .running) :
    ∀ br ∈ ran true (armed (calls create hist) timeout now) l,
      (br.1.kind = .linked ∨ br.1.kind = .call → br.2.next ≠ .interrupt → ¬Reached now timeout br.2.now) ∧
      (br.1.kind = .hlt → (∀ p ∈ br.2.polls, p.1 ≠ .hw) → ∀ p ∈ br.2.polls, ¬Reached now timeout p.2) :=
  loop_in_time l _ rfl rfl (calls_timer hist create (by intro b hb; cases hb) (.inr hh)) ha.now ha.inner h

theorem end_rsb (c : Cpu) (b : Block) (r : Run) (h : c.rsb ≤ 64) : (blockEnd c b r).rsb ≤ 64 := by
  have hm : min 64 (c.rsb + 1) ≤ 64 := Nat.min_le_left _ _
  unfold blockEnd
  split
  · exact hm
  · exact hm
  · exact hm
  · exact hm
  · unfold retEnd
    split
    · rename_i n hn _; show n ≤ 64; omega
    · rename_i n hn _; show n ≤ 64; omega
    · exact Nat.zero_le _
  · exact h

theorem block_rsb {c c1 : Cpu} {b : Block} {r : Run} (h : runBlock c b r = some c1) (hc : c.rsb ≤ 64) : c1.rsb ≤ 64 := by
  unfold runBlock at h
  split at h
  · split at h
    · cases h
    · cases h; exact hc
  · cases h; exact end_rsb _ b r (by show c.rsb - r.lost ≤ 64; omega)

theorem loop_rsb : ∀ (l : List Run) (u : Bool) (c : Cpu), c.rsb ≤ 64 → (mainLoop u c l).1.rsb ≤ 64 := by
  intro l
  induction l with
  | nil => intro u c hc; unfold mainLoop; split <;> exact hc
  | cons r l ih =>
    intro u c hc
    unfold mainLoop
    split
    · exact hc
    · split
      · exact hc
      · rename_i c1 b hk
        have h2 := pick_timer hk
        have hc1 : c1.rsb ≤ 64 := by rw [h2.2.2.2.2]; exact hc
        split
        · exact hc1
        · rename_i c2 hb
          exact ih u c2 (block_rsb hb hc1)

theorem calls_rsb (l : List Call) : ∀ (c : Cpu), c.rsb ≤ 64 → (calls c l).rsb ≤ 64 := by
  induction l with
  | nil => intro c hc; exact hc
  | cons q l ih =>
    intro c hc
    refine ih _ ?_
    cases q with
    | run rs => simp only [call, runForever]; split
                · exact hc
                · exact loop_rsb rs _ _ hc
    | runUntil t now polls rs =>
      simp only [call, runUntil]
      split
      · split
        · exact hc
        · exact hc
        · exact loop_rsb rs _ _ hc
      · exact loop_rsb rs _ _ hc

/-- A block that looks at the timer when it has fired requests the exit; it goes straight on only if it
is a return, and then takes an entry from the return stack buffer. -/
theorem late_end {c : Cpu} {b : Block} {r : Run} (ht : Timed b.kind → b.timer = true) (hf : timerFires c.timer r.now = true)
    (hd : (blockEnd c b r).direct = true) : (blockEnd c b r).rsb < c.rsb := by
  have h : ∀ k, b.kind = k → k ≠ .raises → k ≠ .stepping → b.timer = true := by
    rintro k rfl h1 h2; exact ht ⟨h1, h2⟩
  cases hk : b.kind <;> cases hn : r.next <;>
    simp_all [blockEnd, jumpEnd, checked, pushed, retEnd]
  all_goals (cases hr : c.rsb <;> simp_all)

theorem block_late {c c2 : Cpu} {b : Block} {r : Run} (ht : Timed b.kind → b.timer = true)
    (hf : timerFires c.timer r.now = true) (hb : runBlock c b r = some c2) (hd : c2.direct = true) : c2.rsb < c.rsb := by
  unfold runBlock at hb
  split at hb
  · split at hb
    · cases hb
    · cases hb; cases hd
  · cases hb
    have := late_end (c := { c with rsb := c.rsb - r.lost }) ht hf hd
    dsimp only at this
    omega

theorem block_keeps {c c2 : Cpu} {b : Block} {r : Run} (he : c.exitReq = true) (hb : runBlock c b r = some c2) :
    c2.exitReq = true := by
  unfold runBlock at hb
  split at hb
  · split at hb
    · cases hb
    · cases hb; simp [he]
  · cases hb
    rcases end_exit { c with rsb := c.rsb - r.lost } b r with e | e <;> rw [e] <;> simp [he]

theorem loop_late {start timeout : BitVec 64} : ∀ (l : List Run) (c : Cpu), c.timer = ⟨start, timeout⟩ →
    c.timeoutFlag = true → TimerCode c → c.exitReq = true →
    (∀ r ∈ l, start.toNat ≤ r.now.toNat ∧ Reached start timeout r.now) →
    (ran true c l).length ≤ if c.direct then c.rsb + 1 else 0 := by
  intro l
  induction l with
  | nil => intro c _ _ _ _ _; exact Nat.zero_le _
  | cons r l ih =>
    intro c hc hf ht he hr
    cases hd : c.direct
    · simp [ran, he, hd]
    · unfold ran
      simp only [he, hd, Bool.not_true, Bool.and_false, Bool.false_eq_true, if_false, if_true]
      split
      · exact Nat.zero_le _
      · rename_i c1 b hk
        have h1 := timer_pick hf ht hk
        have h2 := pick_timer hk
        split
        · exact Nat.le_add_left 1 _
        · rename_i c2 hb
          have h3 := block_timer hb
          have hfr : timerFires c1.timer r.now = true := by
            rw [h2.1, hc]; exact (fires_iff _ _ _ (hr r List.mem_cons_self).1).mpr (hr r List.mem_cons_self).2
          have := ih c2 (by rw [h3.1, h2.1, hc]) (by rw [h3.2.1, h2.2.2.1, hf]) (fun b hb' => h1.1 b (h3.2.2 ▸ hb'))
            (block_keeps (by rw [h2.2.1, he]) hb) (fun r h => hr r (List.mem_cons_of_mem _ h))
          rw [List.length_cons]
          cases hd2 : c2.direct
          · rw [hd2] at this; simp only [Bool.false_eq_true, if_false] at this; omega
          · have hl := block_late h1.2 hfr hb hd2
            rw [hd2] at this
            simp only [if_true] at this
            rw [h2.2.2.2.2] at hl
            omega

/-- The clock readings of the blocks never go back. -/
def Forward (l : List Run) : Prop := l.Pairwise (fun a b => a.now.toNat ≤ b.now.toNat)

theorem checks_exit {c : Cpu} {b : Block} {r : Run} (hk : b.kind ≠ .hlt) (ht : Timed b.kind) (hb : b.timer = true)
    (hi : r.next ≠ .interrupt) (hf : timerFires c.timer r.now = true) : (blockEnd c b r).exitReq = true := by
  obtain ⟨h1, h2⟩ := ht
  cases hk' : b.kind <;> cases hn : r.next <;>
    simp_all [blockEnd, jumpEnd, checked, pushed, retEnd]
  all_goals (split <;> simp)

theorem loop_delay {start timeout : BitVec 64} : ∀ (l : List Run) (c : Cpu), c.timer = ⟨start, timeout⟩ →
    c.timeoutFlag = true → TimerCode c → c.rsb ≤ 64 →
    (∀ r ∈ l, start.toNat ≤ r.now.toNat) → Forward l →
    ∀ (pre post : List (Block × Run)) (b : Block) (r : Run), ran true c l = pre ++ (b, r) :: post →
      Timed b.kind → b.kind ≠ .hlt → r.next ≠ .interrupt → Reached start timeout r.now → post.length ≤ 64 := by
  intro l
  induction l with
  | nil => intro c _ _ _ _ _ _ pre post b r h; cases pre <;> cases h
  | cons q l ih =>
    intro c hc hf ht hs hn hfw pre post b r h hk hh hi hre
    unfold ran at h
    split at h
    · cases pre <;> cases h
    · split at h
      · cases pre <;> cases h
      · rename_i c1 b1 hp
        have h1 := timer_pick hf ht hp
        have h2 := pick_timer hp
        have hs1 : c1.rsb ≤ 64 := by rw [h2.2.2.2.2]; exact hs
        split at h
        · cases pre with
          | nil => injection h with _ h; rw [← h]; exact Nat.zero_le _
          | cons _ t => injection h with _ h; cases t <;> cases h
        · rename_i c2 hb
          have h3 := block_timer hb
          have hc2 : c2.timer = ⟨start, timeout⟩ := by rw [h3.1, h2.1, hc]
          have hf2 : c2.timeoutFlag = true := by rw [h3.2.1, h2.2.2.1, hf]
          have ht2 : TimerCode c2 := fun b hb' => h1.1 b (h3.2.2 ▸ hb')
          cases pre with
          | cons _ t =>
            injection h with _ h
            exact ih c2 hc2 hf2 ht2 (block_rsb hb hs1) (fun r hr => hn r (List.mem_cons_of_mem _ hr))
              (List.Pairwise.of_cons hfw) t post b r h hk hh hi hre
          | nil =>
            injection h with e h
            injection e with e1 e2
            subst e1; subst e2
            have hfr : timerFires c1.timer q.now = true := by
              rw [h2.1, hc]; exact (fires_iff _ _ _ (hn q List.mem_cons_self)).mpr hre
            have hx : c2.exitReq = true := by
              unfold runBlock at hb
              split at hb
              · exact absurd ‹_› hh
              · cases hb
                exact checks_exit (c := { c1 with rsb := c1.rsb - q.lost }) hh hk (h1.2 hk) hi hfr
            have hl := loop_late (start := start) (timeout := timeout) l c2 hc2 hf2 ht2 hx (fun r hr =>
              ⟨hn r (List.mem_cons_of_mem _ hr), Nat.le_trans hre (List.rel_of_pairwise_cons hfw hr)⟩)
            rw [h] at hl
            cases hd : c2.direct
            · rw [hd] at hl; simp only [Bool.false_eq_true, if_false] at hl; omega
            · have hlt := block_late h1.2 hfr hb hd
              rw [hd] at hl; simp only [if_true] at hl; omega

/-- C53, the part that holds with returns: when the guest has only ever been run with cpu_run_until, then
after any block that looks at the timer at or past the deadline (jump, call, return, page end, without a
pending interrupt) at most 64 more blocks run, however long the schedule. Missing: as for
C53_returns_partial, and the full property allows none. -/
theorem C53_delay_partial (hist : List Call) (hh : ∀ q ∈ hist, ∃ a b d e, q = .runUntil a b d e)
    (timeout now : BitVec 64) (l : List Run) (ha : After now [] l) (hfw : Forward l)
    (pre post : List (Block × Run)) (b : Block) (r : Run)
    (h : ran true (armed (calls create hist) timeout now) l = pre ++ (b, r) :: post)
    (hk : b.kind = .linked ∨ b.kind = .call ∨ b.kind = .ret) (hi : r.next ≠ .interrupt) (hr : Reached now timeout r.now) :
    post.length ≤ 64 := by
  refine loop_delay l (armed (calls create hist) timeout now) rfl rfl (calls_timer hist create (by intro b hb; cases hb) (.inr hh))
    (calls_rsb hist create (by decide)) ha.now hfw pre post b r h ?_ ?_ hi hr
  · rcases hk with e | e | e <;> rw [e] <;> exact ⟨by decide, by decide⟩
  · rcases hk with e | e | e <;> rw [e] <;> decide

/-- C53 fails for returns: two calls made in time, then two returns past the deadline. The first return
sees the timer fire and execution goes on in the next block. -/
theorem C53_ret_violation :
    let l : List Run := [⟨.fresh .call, 101#64, [], .hit, 0⟩, ⟨.fresh .call, 102#64, [], .hit, 0⟩,
      ⟨.fresh .ret, 110#64, [], .hit, 0⟩, ⟨.fresh .ret, 111#64, [], .hit, 0⟩]
    Forward l ∧ After 100#64 [] l ∧ (runUntil create 10#64 100#64 [] l).2 = .running ∧
    (ran true (armed create 10#64 100#64) l).length = 4 ∧ ¬ReturnsInTime create 10#64 100#64 l := by
  refine ⟨by unfold Forward; decide, ⟨by simp, by decide, by decide⟩, by decide, by decide, ?_⟩
  intro h
  exact (h (by decide) (⟨.ret, true⟩, ⟨.fresh .ret, 110#64, [], .hit, 0⟩) (by
    simp [ran, armed, create, pickBlock, translate, runBlock, blockEnd, jumpEnd, retEnd, checked, pushed, timerFires])).1
    (by decide) (by unfold Reached; decide)

/-- The hypotheses of C53_delay_partial: a return past the deadline, and one block after it. -/
example : ran true (armed (calls create [.runUntil 1#64 5#64 [] [⟨.fresh .linked, 7#64, [], .hit, 0⟩]]) 10#64 100#64)
      [⟨.fresh .call, 101#64, [], .hit, 0⟩, ⟨.fresh .ret, 110#64, [], .hit, 0⟩, ⟨.fresh .linked, 111#64, [], .hit, 0⟩,
       ⟨.cached 0, 112#64, [], .hit, 0⟩] =
    [(⟨.call, true⟩, ⟨.fresh .call, 101#64, [], .hit, 0⟩)] ++ (⟨.ret, true⟩, ⟨.fresh .ret, 110#64, [], .hit, 0⟩) ::
      [(⟨.linked, true⟩, ⟨.fresh .linked, 111#64, [], .hit, 0⟩)] := by rfl

/-- C53: a cpu left halted by an earlier timeout: the next call waits for an interrupt and returns
`timeout` exactly when the deadline is seen first. -/
theorem C53_halted_waits (c : Cpu) (hc : c.halted = true) (timeout now : BitVec 64) (polls : List (Poll × BitVec 64))
    (ha : ∀ p ∈ polls, now.toNat ≤ p.2.toNat) (hno : ∀ p ∈ polls, p.1 ≠ .hw) (hr : ∃ p ∈ polls, Reached now timeout p.2)
    (l : List Run) : (runUntil c timeout now polls l).2 = .timeout := by
  have hc' : (armed c timeout now).halted = true := hc
  unfold runUntil
  simp only [hc', if_true]
  split
  · rename_i hl
    obtain ⟨p, hp, hr⟩ := hr
    have : timerFires ⟨now, timeout⟩ p.2 = false := hltLoop_none hl p hp
    rw [(fires_iff _ _ _ (ha p hp)).mpr hr] at this
    cases this
  · rfl
  · rename_i e hl
    cases e
    · exact absurd hl (hltLoop_some hno)
    · exact stop l _ rfl rfl

/-- The schedule of the violations: the cached block at position 0, `n` times, at time `t`. -/
def again (t : BitVec 64) (n : Nat) : List Run := List.replicate n ⟨.cached 0, t, [], .miss, 0⟩

theorem again_runs (b : Block) (hk : b.kind ≠ .hlt) (ht : b.timer = false) (t : BitVec 64) (n : Nat) :
    ∀ (c : Cpu), c.cache[0]? = some b → c.exitReq = false →
    (mainLoop true c (again t n)).2 = .running ∧ (ran true c (again t n)).length = n := by
  induction n with
  | zero => intro c _ he; simp [again, mainLoop, ran, he]
  | succ n ih =>
    intro c hb he
    have hp : pickBlock c (.cached 0) = some (c, b) := by simp [pickBlock, hb]
    obtain ⟨c2, hr⟩ : ∃ c2, runBlock c b ⟨.cached 0, t, [], .miss, 0⟩ = some c2 := by
      unfold runBlock; split
      · rename_i h; exact absurd h hk
      · exact ⟨_, rfl⟩
    have h2 : c2.exitReq = false := by
      unfold runBlock at hr; split at hr
      · rename_i h; exact absurd h hk
      · cases hr
        rcases end_exit { c with rsb := c.rsb - 0 } b ⟨.cached 0, t, [], .miss, 0⟩ with e | e
        · exact e.trans he
        · refine e.trans ?_
          rw [ht]
          show (c.exitReq || (false && _)) = false
          rw [he]; rfl
    have := ih c2 (by rw [(block_timer hr).2.2]; exact hb) h2
    have e : again t (n + 1) = ⟨.cached 0, t, [], .miss, 0⟩ :: again t n := rfl
    rw [e]
    unfold mainLoop ran
    simp only [he, Bool.and_false, Bool.false_and, Bool.false_eq_true, if_false, hp, hr, List.length_cons]
    exact ⟨this.1, by rw [this.2]⟩

/-- C53 fails: code translated during a cpu_run (ended with cpu_exit) carries no timer check, and
cpu_run_until reuses it: it can run any number of blocks past the deadline. -/
theorem C53_cached_code_violation (n : Nat) :
    let c := calls create [.run [⟨.fresh .linked, 0#64, [], .miss, 0⟩]]
    (runUntil c 10#64 0#64 [] (again 1000#64 n)).2 = .running ∧
    (ran true (armed c 10#64 0#64) (again 1000#64 n)).length = n ∧
    Reached 0#64 10#64 1000#64 ∧ ¬ReturnsInTime c 10#64 0#64 (again 1000#64 1) := by
  refine ⟨?_, ?_, by unfold Reached; decide, ?_⟩
  · exact (again_runs ⟨.linked, false⟩ (by decide) rfl _ _ _ rfl rfl).1
  · exact (again_runs ⟨.linked, false⟩ (by decide) rfl _ _ _ rfl rfl).2

  · intro h
    exact (h rfl (⟨.linked, false⟩, ⟨.cached 0, 1000#64, [], .miss, 0⟩) (by simp [again, ran, calls, call, runForever, mainLoop,
      pickBlock, runBlock, translate, create, blockEnd, jumpEnd, checked, armed])).1 (by decide) (by unfold Reached; decide)

/-- C53 fails for guests that only raise exceptions: those blocks never look at the timer. -/
theorem C53_exceptions_violation (n : Nat) :
    (runUntil create 10#64 0#64 [] (⟨.fresh .raises, 1000#64, [], .miss, 0⟩ :: again 1000#64 n)).2 = .running := by
  exact (again_runs ⟨.raises, false⟩ (by decide) rfl _ _ _ rfl rfl).1

/-- C53 fails: after any cpu_run_until, whatever it did, cpu_run is rejected. -/
theorem C53_run_afterwards_violation (c : Cpu) (t now : BitVec 64) (polls : List (Poll × BitVec 64)) (l l' : List Run) :
    (runForever (call c (.runUntil t now polls l)) l').2 = .invalid := by
  have : (call c (.runUntil t now polls l)).timeoutFlag = true := by
    have flag : ∀ (l : List Run) (c : Cpu), c.timeoutFlag = true → (mainLoop true c l).1.timeoutFlag = true := by
      intro l
      induction l with
      | nil => intro c h; unfold mainLoop; split <;> exact h
      | cons r l ih =>
        intro c h
        unfold mainLoop
        split
        · exact h
        · split
          · exact h
          · rename_i c1 b hk
            have h2 := pick_timer hk
            split
            · rw [h2.2.2.1, h]
            · rename_i c2 hb
              exact ih c2 (by rw [(block_timer hb).2.1, h2.2.2.1, h])
    simp only [call, runUntil]
    split
    · split
      · rfl
      · rfl
      · exact flag _ _ rfl
    · exact flag _ _ rfl
  simp [runForever, this]

/-- A run of three blocks that times out at the third, and one that halts and times out. -/
example : (runUntil create 10#64 100#64 [] [⟨.fresh .linked, 103#64, [], .miss, 0⟩, ⟨.fresh .raises, 105#64, [], .miss, 0⟩, ⟨.fresh .linked, 110#64, [], .miss, 0⟩,
      ⟨.cached 0, 111#64, [], .miss, 0⟩]).2 = .timeout ∧
    (ran true { create with timeoutFlag := true, timer := ⟨100#64, 10#64⟩ }
      [⟨.fresh .linked, 103#64, [], .miss, 0⟩, ⟨.fresh .raises, 105#64, [], .miss, 0⟩, ⟨.fresh .linked, 110#64, [], .miss, 0⟩, ⟨.cached 0, 111#64, [], .miss, 0⟩]).length = 3 := by
  decide
example : let c := (runUntil create 10#64 100#64 [] [⟨.fresh .hlt, 0#64, [(.nothing, 101#64), (.other, 112#64)], .miss, 0⟩]).1
    c.halted = true ∧ (runUntil c 5#64 200#64 [(.nothing, 203#64), (.hw, 204#64)] [⟨.fresh .linked, 205#64, [], .miss, 0⟩]).2 = .timeout := by decide
example : After 100#64 [] [⟨.fresh .linked, 103#64, [], .miss, 0⟩, ⟨.fresh .hlt, 110#64, [(.hw, 104#64)], .miss, 0⟩] :=
  ⟨by simp, by simp, by simp⟩

/-- C53: cpu_run has no deadline. It never reports a timeout. -/
theorem C53_no_deadline (c : Cpu) (l : List Run) : (runForever c l).2 ≠ .timeout := by
  have key : ∀ (l : List Run) (c : Cpu), (mainLoop false c l).2 ≠ .timeout := by
    intro l
    induction l with
    | nil => intro c; simp [mainLoop]
    | cons r l ih =>
      intro c
      simp only [mainLoop, Bool.false_and, Bool.false_eq_true, if_false]
      split
      · simp
      · split
        · simp
        · exact ih _
  unfold runForever
  split
  · simp
  · exact key l _

example : (runForever create [⟨.fresh .linked, 5#64, [], .miss, 0⟩, ⟨.cached 0, 9#64, [], .miss, 0⟩]).2 = .running := by decide

end Verif.Clock
