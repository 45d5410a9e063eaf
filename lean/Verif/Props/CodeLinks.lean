import Verif.Props.CodeCache
/-
C47 cached blocks are fresh code, C48 links, C49 return stack buffer, C51 hooks, C69 self-modification.
-/
namespace Verif.Tc

/-! ### C47 -/

/-- **C47**: through every route a block is executed only with the code segment base and the mode it was translated
for; the main loop runs it only at its physical address, and a direct jump only at its linear address. -/
theorem C47_key_partial (d : Decoder) (hl : LenOk d) (mem : BitVec 32 → BitVec 8) (map : BitVec 20 → BitVec 20)
    (os : List Op) (hs : All d Ok (reset mem map) os) (o : Op) (t : Tc)
    (he : (step d (hist d (reset mem map) os) o).1 = some t) :
    t.csBase = (hist d (reset mem map) os).csBase ∧ t.flags = (hist d (reset mem map) os).flags ∧
    (∀ v link, o = .run v link → t.pc = phys (hist d (reset mem map) os).map v) ∧
    (∀ v, o = .jump v → t.virt = v) := by
  obtain ⟨h, hr⟩ := rsb_hist d hl os _ (inv_reset mem map) (rsb_reset mem map) hs
  generalize hist d (reset mem map) os = s at h hr he
  have h1 : t.csBase = s.csBase ∧ t.flags = s.flags := by
    rcases exec_in h hr he with ⟨_, h1, h2⟩ | ⟨v, link, rfl, rfl⟩
    · exact ⟨h1, h2⟩
    · have hk := translate_key d s v
      exact ⟨hk.2.2.2.1, hk.2.2.2.2⟩
  refine ⟨h1.1, h1.2, ?_, ?_⟩
  · rintro v link rfl
    rcases run_exec d s v link with ⟨u, g1, g2⟩ | ⟨_, g2⟩
    · rw [g2] at he; cases he; exact (search_in g1).2.2.1
    · rw [g2] at he; cases he; exact (translate_key d s v).2.1
  · rintro v rfl
    exact (jump_in h (jump_exec he)).2.1

/-- **C47** (partial): if in addition no code is reached through two linear addresses, and hooks are added and
removed outside the defects of C51, running or jumping to a linear address executes exactly the block that
translating the code there now would give; only its identity differs. -/
theorem C47_fresh_partial (d : Decoder) (hl : LenOk d) (hd : Local d) (mem : BitVec 32 → BitVec 8)
    (map : BitVec 20 → BitVec 20) (os : List Op)
    (hs : All d (fun s o => OkMap s o ∧ SaneHook s o) (reset mem map) os) (v : BitVec 32) (o : Op)
    (ho : o = .jump v ∨ ∃ link, o = .run v link) (hm : SaneMap (hist d (reset mem map) os) o) (t : Tc)
    (he : (step d (hist d (reset mem map) os) o).1 = some t) (hb : NoBad t.body) :
    t = { (translate d (hist d (reset mem map) os) v).1 with id := t.id } := by
  obtain ⟨h, hr, hk⟩ := link_hist d hl os _ (inv_reset mem map) (rsb_reset mem map) (link_reset mem map)
    (hs.imp fun _ _ h => h.1)
  have hf := fresh_hist hl hd os _ (inv_reset mem map) (fresh_reset d mem map) (hs.imp fun _ _ h => h.1.1)
  have hh := hook_hist hl os _ (inv_reset mem map) (hook_reset mem map) (hs.imp fun _ _ h => ⟨h.1.1, h.2⟩)
  generalize hist d (reset mem map) os = s at h hr he hf hh hk hm
  have key : (In s t ∧ t.csBase = s.csBase ∧ t.flags = s.flags ∧ t.virt = v ∧ t.pc = phys s.map v) ∨
      t = (translate d s v).1 := by
    rcases ho with rfl | ⟨link, rfl⟩
    · have := jump_in h (jump_exec he)
      refine .inl ⟨this.1, this.2.2.1, this.2.2.2.1, this.2.1, ?_⟩
      have hp := hk.jmp _ t this.2.2.2.2.1 this.2.2.2.2.2
      rw [hp, this.2.1]
    · rcases run_exec d s v link with ⟨u, g1, g2⟩ | ⟨_, g2⟩
      · rw [g2] at he; cases he
        have := search_in g1
        exact .inl ⟨this.1, this.2.1, this.2.2.2, hm t g1, this.2.2.1⟩
      · rw [g2] at he; cases he; exact .inr rfl
  rcases key with ⟨k1, k2, k3, k4, k5⟩ | k
  · have hook := hh t k1
    rw [k3, k4] at hook
    obtain ⟨id, csBase, pc, virt, flags, size, body, hook'⟩ := t
    dsimp only at k2 k3 k4 k5 hook hb
    subst k2 k3 k4 k5
    unfold translate
    dsimp only
    cases hx : (if s.flags &&& 0x40#32 = 0#32 then s.hooks virt else none) with
    | some x =>
      rw [hx] at hook
      obtain ⟨rfl, e⟩ := hook
      obtain ⟨rfl, rfl⟩ := e (by simp)
      rfl
    | none =>
      rw [hx] at hook
      obtain ⟨rfl, _⟩ := hook
      have := hf _ k1 rfl hb s.map
      dsimp only at this
      simp only [this]
  · rw [← k]

/-- A history that meets the premises, in which a second block is reached by a direct jump. -/
example : All tiny (fun s o => OkMap s o ∧ SaneHook s o) (reset code ident)
      [.run 0x1000#32 false, .run 0x2004#32 true, .hookAdd 0x3000#32 7, .write 0x1000#32 [0xC3#8], .run 0x1000#32 true] ∧
    (step tiny (hist tiny (reset code ident)
      [.run 0x1000#32 false, .run 0x2004#32 true, .hookAdd 0x3000#32 7, .write 0x1000#32 [0xC3#8], .run 0x1000#32 true])
      (.jump 0x2004#32)).1.map (·.size) = some 1 := by
  have hrun : ∀ (s : St) (v : BitVec 32) (l : Bool), s.num ≠ 32768 → search s (phys s.map v) = none →
      OkMap s (.run v l) ∧ SaneHook s (.run v l) := by
    intro s v l hn hs
    exact ⟨⟨hn, trivial, fun t ht => by rw [hs] at ht; cases ht⟩, trivial⟩
  refine ⟨⟨hrun _ _ _ (by decide) (by decide +kernel), hrun _ _ _ (by decide +kernel) (by decide +kernel), ?_, ?_,
    hrun _ _ _ (by decide +kernel) (by decide +kernel), trivial⟩, by decide +kernel⟩
  · refine ⟨⟨trivial, trivial, trivial⟩, ?_⟩
    intro t ht hv
    rcases in_step tiny _ (.run 0x2004#32 true) t ht with ht | ⟨w, l, e, rfl, _⟩
    · rcases in_step tiny _ (.run 0x1000#32 false) t ht with ht | ⟨w, l, e, rfl, _⟩
      · cases ht
      · cases e
        rw [(translate_key _ _ _).2.2.1] at hv
        exact absurd hv (by decide)
    · cases e
      rw [(translate_key _ _ _).2.2.1] at hv
      exact absurd hv (by decide)
  · refine ⟨⟨?_, trivial, trivial⟩, trivial⟩
    show _ % 4096 + _ ≤ 4096; decide

/-- **C47** is violated when one physical address is reached through two linear addresses: the block translated
for the first, with its relative targets and its hook, also runs at the second. -/
theorem C47_alias_violation : ∃ (map : BitVec 20 → BitVec 20) (t : Tc),
    All tiny Ok (reset code map) [.run 0x1000#32 false] ∧
    (step tiny (hist tiny (reset code map) [.run 0x1000#32 false]) (.run 0x2000#32 false)).1 = some t ∧
    t.virt = 0x1000#32 := by
  refine ⟨fun _ => 5#20, ⟨0, 0xFFFF0000#32, 0x5000#32, 0x1000#32, 0#32, 1, [.ok [0xC3#8]], none⟩, ⟨⟨?_, trivial⟩, trivial⟩, by decide +kernel, rfl⟩
  show 0 ≠ 32768; decide

/-! ### C48 -/

/-- **C48**: in every history outside the defects, a direct jump never goes to a block that was removed. -/
theorem C48_links_live_partial (d : Decoder) (hl : LenOk d) (mem : BitVec 32 → BitVec 8) (map : BitVec 20 → BitVec 20)
    (os : List Op) (hs : All d Sane (reset mem map) os) (v : BitVec 32) (t : Tc)
    (hj : jumpTo (hist d (reset mem map) os) v = some t) :
    t ∈ (hist d (reset mem map) os).cache (hash t.pc) ∧ t ∈ (hist d (reset mem map) os).pages (page t.pc) := by
  have h := inv_hist d hl os _ (inv_reset mem map) hs
  have := (jump_in h hj).1
  exact ⟨this, (h.cachePages _ t this).2.1⟩

/-- **C48**: a write removes every block it touches, and with it all direct jumps to the block. -/
theorem C48_write_unlinks_partial (d : Decoder) (hl : LenOk d) (mem : BitVec 32 → BitVec 8) (map : BitVec 20 → BitVec 20)
    (os : List Op) (hs : All d Sane (reset mem map) os) (p : BitVec 32) (bs : List (BitVec 8))
    (hp : p.toNat % 4096 + bs.length ≤ 4096) (t : Tc) (i j : Nat) (hi : i < t.size) (hj : j < bs.length)
    (ho : t.pc + BitVec.ofNat 32 i = p + BitVec.ofNat 32 j) (hpg : page t.pc = page p) :
    t ∉ (step d (hist d (reset mem map) os) (.write p bs)).2.cache (hash t.pc) ∧
    ∀ v, jumpTo (step d (hist d (reset mem map) os) (.write p bs)).2 v ≠ some t := by
  have h := inv_hist d hl os _ (inv_reset mem map) hs
  generalize hist d (reset mem map) os = s at h
  have h' := inv_step h d hl (.write p bs) hp
  have hn : ¬ In (step d s (.write p bs)).2 t := by
    intro hin
    have hs : In s t := (in_step d s _ t hin).resolve_right (by rintro ⟨v, l, e, _⟩; cases e)
    have g := h.good t hs
    have hin : In (write s p bs) t := hin
    unfold Tc.write at hin
    dsimp only at hin
    have hc : s.smc (page p) = true := by rw [← hpg]; exact h.smcOk _ t (h.cachePages _ t hs).2.1
    rw [if_pos hc] at hin
    have hov := (invalidate_sub h p bs.length t hin).2 hpg
    unfold overlaps at hov
    simp only [Bool.and_eq_false_iff, bne_eq_false_iff_eq, Bool.not_eq_false', decide_eq_true_eq] at hov
    have h1 := g.onPage
    have h2 := t.pc.isLt
    have h3 := p.isLt
    have ho := congrArg BitVec.toNat ho
    simp only [BitVec.toNat_add, BitVec.toNat_ofNat] at ho
    rcases hov with hov | hov <;> omega
  exact ⟨hn, fun v hj => hn (jump_in h' hj).1⟩

/-- **C48**: after the translation of a page was invalidated, there is no direct jump to an address on it. -/
theorem C48_invlpg_partial (d : Decoder) (hl : LenOk d) (mem : BitVec 32 → BitVec 8) (map : BitVec 20 → BitVec 20)
    (os : List Op) (hs : All d Sane (reset mem map) os) (v w : BitVec 32) (to : BitVec 20) (hw : page w = page v) :
    jumpTo (step d (hist d (reset mem map) os) (.invlpg v to)).2 w = none := by
  have h := inv_hist d hl os _ (inv_reset mem map) hs
  generalize hist d (reset mem map) os = s at h
  have h' := inv_step h d hl (.invlpg v to) trivial
  cases hj : jumpTo (step d s (.invlpg v to)).2 w with
  | none => rfl
  | some t =>
    have g := jump_in h' hj
    have hv := (h'.jmpOk _ g.2.2.2.2.1)
    have h0 : Inv { s with map := upd s.map (page v) to } [] :=
      h.same rfl rfl (fun _ h => h) rfl rfl rfl (Nat.le_refl _) h.mode
    have := unlinkPage_gone h0 v (jidx w) g.2.2.2.2.1
    obtain ⟨u, u1, _, u3, _⟩ := hv.2.2
    rw [g.2.2.2.2.2] at u1; cases u1
    refine absurd ?_ this
    have u3 : t.virt = ((unlinkPage { s with map := upd s.map (page v) to } v).jmp (jidx w)).virt := u3
    rw [← u3, g.2.1, hw]

/-- **C48**: after all translations were invalidated, or the code cache cleared or purged, there is no direct jump
at all, and no predicted return. -/
theorem C48_flush (d : Decoder) (s : St) (hm : s.flags &&& INVALID = 0#32) (o : Op)
    (ho : (∃ map, o = .flush map) ∨ o = .clear ∨ o = .purge) (w : BitVec 32) :
    jumpTo (step d s o).2 w = none ∧ (rsbPop { (step d s o).2 with now := w }).1 = none := by
  have key : ∀ s' : St, s'.flags = s.flags → (∀ i, (s'.jmp i).flags = INVALID) → (∀ i, (s'.rsb i).valid = false) →
      jumpTo s' w = none ∧ (rsbPop { s' with now := w }).1 = none := by
    intro s' hf h1 h2
    constructor
    · unfold jumpTo
      dsimp only
      rw [if_neg]
      rintro ⟨_, _, e⟩
      rw [h1, hf] at e
      rw [← e] at hm
      exact invalid_self hm
    · unfold rsbPop
      dsimp only
      rw [if_pos (h2 _)]
  rcases ho with ⟨map, rfl⟩ | rfl | rfl <;> exact key _ rfl (fun _ => rfl) (fun _ => rfl)

/-- The premises are met by a history that makes a link: it exists before the invalidation. -/
example : All tiny Sane (reset code ident) [.run 0x1000#32 false, .run 0x2000#32 true] ∧
    (jumpTo (hist tiny (reset code ident) [.run 0x1000#32 false, .run 0x2000#32 true]) 0x2000#32).map (·.virt) = some 0x2000#32 ∧
    jumpTo (step tiny (hist tiny (reset code ident) [.run 0x1000#32 false, .run 0x2000#32 true]) (.invlpg 0x2000#32 9#20)).2 0x2000#32 = none := by
  refine ⟨⟨?_, ?_, trivial⟩, by decide +kernel, by decide +kernel⟩
  · show 0 ≠ 32768; decide
  · show ((step tiny (reset code ident) (.run 0x1000#32 false)).2).num ≠ 32768
    decide +kernel

/-- **C48** is violated through an alias: after the page of 0x1000 was mapped elsewhere, the old block is found at
0x2000, which still maps its physical page, and is linked again under 0x1000, so that a jump to 0x1000 executes the
code of the page that is no longer mapped there. -/
theorem C48_alias_violation : ∃ (map : BitVec 20 → BitVec 20) (os : List Op) (t : Tc),
    All tiny Ok (reset code map) os ∧
    (step tiny (hist tiny (reset code map) os) (.jump 0x1000#32)).1 = some t ∧
    t.pc ≠ phys (hist tiny (reset code map) os).map 0x1000#32 := by
  refine ⟨fun _ => 5#20, [.run 0x1000#32 false, .invlpg 0x1000#32 1#20, .run 0x2000#32 true],
    ⟨0, 0xFFFF0000#32, 0x5000#32, 0x1000#32, 0#32, 1, [.ok [0xC3#8]], none⟩, ⟨⟨?_, trivial⟩, ⟨trivial, trivial⟩, ⟨?_, trivial⟩, trivial⟩,
    by decide +kernel, by decide +kernel⟩
  · show 0 ≠ 32768; decide
  · show ((step tiny (step tiny (reset code _) (.run 0x1000#32 false)).2 (.invlpg 0x1000#32 1#20)).2).num ≠ 32768
    decide +kernel

/-! ### C49 -/

/-- An entry of the predictor: return address, offset into the block, block. -/
abbrev Entry := BitVec 32 × Nat × Option Tc

/-- Specification: a stack of 64 slots, the top first. -/
abbrev Stack := List (Option Entry)

def Stack.push (l : Stack) (e : Entry) : Stack := some e :: l.dropLast

/-- An empty top or a mismatch empties the stack; otherwise the top is removed. -/
def Stack.pop (l : Stack) (now cs fl : BitVec 32) : Option (Tc × Nat) × Stack :=
  match l with
  | some (_, _, none) :: r => (none, r ++ [none])
  | some (target, off, some t) :: r =>
    if now = target ∧ cs = t.csBase ∧ fl = t.flags then (some (t, off), r ++ [none]) else (none, List.replicate 64 none)
  | _ => (none, List.replicate 64 none)

/-- The slots of the ring, from the top. -/
def slots (s : St) : Stack := (List.range 64).map fun i =>
  let r := s.rsb (s.rsbPtr + BitVec.ofNat 6 i)
  if r.valid then some (r.target, r.off, r.tc) else none

theorem slots_length (s : St) : (slots s).length = 64 := by simp [slots]

theorem slots_get (s : St) (i : Nat) (h : i < 64) : (slots s)[i]? =
    some (let r := s.rsb (s.rsbPtr + BitVec.ofNat 6 i); if r.valid then some (r.target, r.off, r.tc) else none) := by
  unfold slots
  rw [List.getElem?_map, List.getElem?_range h]
  rfl

/-- **C49**: a CALL pushes on the bounded stack, dropping the oldest entry. -/
theorem C49_push (s : St) (tc : Option Tc) (off : Nat) (target : BitVec 32) :
    slots (rsbPush s tc off target) = (slots s).push (target, off, tc) := by
  apply List.ext_getElem?
  intro i
  by_cases hi : i < 64
  · rw [slots_get _ _ hi]
    unfold rsbPush Stack.push
    dsimp only
    cases i with
    | zero =>
      rw [show (s.rsbPtr - 1#6 + BitVec.ofNat 6 0) = s.rsbPtr - 1#6 by simp, upd_same]
      rfl
    | succ i =>
      have e : s.rsbPtr - 1#6 + BitVec.ofNat 6 (i + 1) = s.rsbPtr + BitVec.ofNat 6 i := by
        rw [BitVec.ofNat_add]
        grind
      have hne : s.rsbPtr + BitVec.ofNat 6 i ≠ s.rsbPtr - 1#6 := by
        intro h
        have h := congrArg BitVec.toNat h
        simp only [BitVec.toNat_add, BitVec.toNat_sub, BitVec.toNat_ofNat] at h
        omega
      have hlt : i < (slots s).length - 1 := by rw [slots_length]; omega
      rw [e, upd_ne _ _ hne, List.getElem?_cons_succ, List.getElem?_dropLast, if_pos hlt, slots_get _ _ (by omega)]
  · rw [List.getElem?_eq_none (by rw [slots_length]; omega), List.getElem?_eq_none]
    unfold Stack.push
    simp [slots_length]
    omega

theorem slots_cons (s : St) : slots s = (let r := s.rsb s.rsbPtr; if r.valid then some (r.target, r.off, r.tc) else none) :: (slots s).tail := by
  have h := slots_get s 0 (by decide)
  rw [show s.rsbPtr + BitVec.ofNat 6 0 = s.rsbPtr by simp] at h
  cases hl : slots s with
  | nil => rw [hl] at h; cases h
  | cons a l => rw [hl] at h; cases h; rfl

theorem slots_flush (s : St) : slots (rsbFlush s) = List.replicate 64 none := by
  apply List.ext_getElem?
  intro i
  by_cases hi : i < 64
  · rw [slots_get _ _ hi, List.getElem?_replicate_of_lt hi]
    rfl
  · rw [List.getElem?_eq_none (by rw [slots_length]; omega), List.getElem?_eq_none (by simp; omega)]

theorem slots_popped (s : St) : slots { s with rsb := upd s.rsb s.rsbPtr (s.rsb s.rsbPtr).clear, rsbPtr := s.rsbPtr + 1#6 } =
    (slots s).tail ++ [none] := by
  apply List.ext_getElem?
  intro i
  by_cases hi : i < 64
  · rw [slots_get _ _ hi]
    dsimp only
    have e : s.rsbPtr + 1#6 + BitVec.ofNat 6 i = s.rsbPtr + BitVec.ofNat 6 (i + 1) := by
      rw [BitVec.ofNat_add]; grind
    rw [e]
    by_cases hl : i < 63
    · rw [List.getElem?_append_left (by simp [slots_length]; omega), List.getElem?_tail, slots_get _ _ (by omega), upd_ne]
      intro h
      have h := congrArg BitVec.toNat h
      simp only [BitVec.toNat_add, BitVec.toNat_ofNat] at h
      omega
    · have : i = 63 := by omega
      subst this
      rw [List.getElem?_append_right (by simp [slots_length]), show s.rsbPtr + BitVec.ofNat 6 (63 + 1) = s.rsbPtr by simp, upd_same]
      simp [slots_length, Rsb.clear]
  · rw [List.getElem?_eq_none (by rw [slots_length]; omega), List.getElem?_eq_none (by simp [slots_length]; omega)]

/-- **C49**: a RET pops the bounded stack; it predicts the block of the top entry exactly if the return address, the
code segment base and the mode are those of the entry. -/
theorem C49_pop (s : St) : (rsbPop s).1 = ((slots s).pop s.now s.csBase s.flags).1 ∧
    slots (rsbPop s).2 = ((slots s).pop s.now s.csBase s.flags).2 := by
  rw [slots_cons s]
  unfold rsbPop
  dsimp only
  cases hv : (s.rsb s.rsbPtr).valid with
  | false =>
    rw [if_pos rfl, if_neg (by simp)]
    exact ⟨rfl, slots_flush s⟩
  | true =>
    rw [if_neg (by simp), if_pos rfl]
    cases ht : (s.rsb s.rsbPtr).tc with
    | none => exact ⟨rfl, slots_popped s⟩
    | some t =>
      unfold Stack.pop
      dsimp only
      split
      · exact ⟨rfl, slots_popped s⟩
      · exact ⟨rfl, slots_flush s⟩

/-- **C49**: a predicted block is the one of the matching CALL: its return address is the actual one, and base and
mode are the current ones. -/
theorem C49_only_matching (d : Decoder) (s : St) (v : BitVec 32) (t : Tc) (h : (step d s (.ret v)).1 = some t) :
    t.csBase = s.csBase ∧ t.flags = s.flags ∧ ∃ off r, slots s = some (v, off, some t) :: r := by
  obtain ⟨off, ho⟩ := ret_exec h
  have g := pop_exec ho
  refine ⟨g.2.2.2.2.1, g.2.2.2.2.2, off, (slots s).tail, ?_⟩
  have e := slots_cons s
  have g1 : (s.rsb s.rsbPtr).valid = true := g.1
  have g2 : (s.rsb s.rsbPtr).tc = some t := g.2.1
  have g3 : (s.rsb s.rsbPtr).off = off := g.2.2.1
  have g4 : (s.rsb s.rsbPtr).target = v := g.2.2.2.1
  dsimp only at e
  rw [g1, if_pos rfl, g2, g3, g4] at e
  exact e

/-- Pushes of a list, the last on top. -/
def pushAll (s : St) (es : List Entry) : St := es.foldr (fun e s => rsbPush s e.2.2 e.2.1 e.1) s

/-- **C49**: up to 64 nested calls are predicted in the reverse order of the calls: after pushing them, the k-th
return finds the k-th entry from the top. -/
theorem C49_lifo (s : St) (es : List Entry) (hn : es.length ≤ 64) (k : Nat) (hk : k < es.length) :
    (slots (pushAll s es))[k]? = some es[k]? := by
  induction es generalizing k with
  | nil => cases hk
  | cons e es ih =>
    show (slots (rsbPush (pushAll s es) e.2.2 e.2.1 e.1))[k]? = _
    rw [C49_push]
    unfold Stack.push
    cases k with
    | zero => rfl
    | succ k =>
      simp only [List.length_cons] at hn hk
      rw [List.getElem?_cons_succ, List.getElem?_dropLast, if_pos (by rw [slots_length]; omega), ih (by omega) k (by omega)]
      rfl

/-- **C49**: balanced calls: popping `k` entries that all match leaves the k-th entry on top. -/
theorem C49_balanced (s : St) (e : Entry) (es : Stack) (t : Tc) (off : Nat) (v : BitVec 32)
    (hs : slots s = some (v, off, some t) :: some e :: es) (h1 : s.csBase = t.csBase) (h2 : s.flags = t.flags) :
    (rsbPop { s with now := v }).1 = some (t, off) ∧
    slots (rsbPop { s with now := v }).2 = some e :: (es ++ [none]) := by
  have h := C49_pop { s with now := v }
  have hs' : slots { s with now := v } = some (v, off, some t) :: some e :: es := hs
  rw [hs'] at h
  unfold Stack.pop at h
  dsimp only at h
  rw [if_pos ⟨rfl, h1, h2⟩] at h
  exact h

/-- A concrete call and return. -/
example : (step tiny (step tiny (step tiny (reset code ident) (.run 0x1000#32 false)).2 (.call 1 0x1001#32)).2
    (.ret 0x1001#32)).1.map (·.virt) = some 0x1000#32 := by decide +kernel

/-- **C49** is violated by a CALL at the end of a page: the return address is on the next page, so removing the
block does not clear its entry, and the return jumps to code that was freed. -/
theorem C49_dangling_violation : ∃ (t : Tc),
    (step tiny (hist tiny (reset code ident)
      [.run 0x2FFF#32 false, .call 1 0x3000#32, .run 0x1000#32 false, .write 0x2FFF#32 [0x90#8]]) (.ret 0x3000#32)).1 = some t ∧
    t ∉ (hist tiny (reset code ident)
      [.run 0x2FFF#32 false, .call 1 0x3000#32, .run 0x1000#32 false, .write 0x2FFF#32 [0x90#8]]).cache (hash t.pc) := by
  refine ⟨⟨0, 0xFFFF0000#32, 0x2FFF#32, 0x2FFF#32, 0#32, 1, [.ok [0xC3#8]], none⟩, by decide +kernel, by decide +kernel⟩

/-- **C49** (partial): outside the defects, a predicted block is always one that is still cached. -/
theorem C49_live_partial (d : Decoder) (hl : LenOk d) (mem : BitVec 32 → BitVec 8) (map : BitVec 20 → BitVec 20)
    (os : List Op) (hs : All d Ok (reset mem map) os) (v : BitVec 32) (t : Tc) (off : Nat)
    (he : (rsbPop { hist d (reset mem map) os with now := v }).1 = some (t, off)) :
    t ∈ (hist d (reset mem map) os).cache (hash t.pc) ∧ v = t.virt + BitVec.ofNat 32 off := by
  obtain ⟨h, hr⟩ := rsb_hist d hl os _ (inv_reset mem map) (rsb_reset mem map) hs
  generalize hist d (reset mem map) os = s at h hr he
  have g := pop_exec he
  have := hr _ t g.1 g.2.1
  refine ⟨this.1, ?_⟩
  have e : (s.rsb s.rsbPtr).target = v := g.2.2.2.1
  rw [← e, this.2.2]
  have e2 : (s.rsb s.rsbPtr).off = off := g.2.2.1
  rw [← e2]

/-! ### C51 -/

/-- **C51**: after any history the hooks are those of the last operations on each address. -/
theorem C51_map (d : Decoder) (mem : BitVec 32 → BitVec 8) (map : BitVec 20 → BitVec 20) (os : List Op) :
    (hist d (reset mem map) os).hooks = hooksOf (fun _ => none) os := by
  have key : ∀ (os : List Op) (s : St), (hist d s os).hooks = hooksOf s.hooks os := by
    intro os
    induction os with
    | nil => exact fun _ => rfl
    | cons o os ih =>
      intro s
      show (hist d (step d s o).2 os).hooks = hooksOf (hooksAfter s.hooks o) os
      rw [ih, hooks_step]
  exact key os _

/-- **C51**: hook_remove reports not_found exactly for an address without a hook, and then changes nothing. -/
theorem C51_not_found (s : St) (a : BitVec 32) : ((hookRemove s a).1 = false ↔ s.hooks a = none) ∧
    ((hookRemove s a).1 = false → (hookRemove s a).2 = s) := by
  unfold hookRemove
  split
  · rename_i h; exact ⟨⟨fun _ => h, fun _ => rfl⟩, fun _ => rfl⟩
  · rename_i h; exact ⟨⟨fun h => (by cases h), fun e => absurd e h⟩, fun h => (by cases h)⟩

/-- **C51** (partial): outside the defects, running or jumping to an address calls exactly the hook set for it by
the history (the trampoline mode calls none), and otherwise runs guest code. -/
theorem C51_called_partial (d : Decoder) (hl : LenOk d) (mem : BitVec 32 → BitVec 8) (map : BitVec 20 → BitVec 20)
    (os : List Op) (hs : All d (fun s o => OkMap s o ∧ SaneHook s o) (reset mem map) os) (v : BitVec 32) (o : Op)
    (ho : o = .jump v ∨ ∃ link, o = .run v link) (hm : SaneMap (hist d (reset mem map) os) o) (t : Tc)
    (he : (step d (hist d (reset mem map) os) o).1 = some t)
    (ht : (hist d (reset mem map) os).flags &&& 0x40#32 = 0#32) : t.hook = hooksOf (fun _ => none) os v := by
  have hmap := C51_map d mem map os
  obtain ⟨h, hr⟩ := rsb_hist d hl os _ (inv_reset mem map) (rsb_reset mem map) (hs.imp fun _ _ h => ⟨h.1.1, h.1.2.1⟩)
  have hh := hook_hist hl os _ (inv_reset mem map) (hook_reset mem map) (hs.imp fun _ _ h => ⟨h.1.1, h.2⟩)
  rw [← hmap]
  generalize hist d (reset mem map) os = s at h hr he hh hm ht
  have key : (In s t ∧ t.flags = s.flags ∧ t.virt = v) ∨ t = (translate d s v).1 := by
    rcases ho with rfl | ⟨link, rfl⟩
    · have := jump_in h (jump_exec he)
      exact .inl ⟨this.1, this.2.2.2.1, this.2.1⟩
    · rcases run_exec d s v link with ⟨u, g1, g2⟩ | ⟨_, g2⟩
      · rw [g2] at he; cases he
        have := search_in g1
        exact .inl ⟨this.1, this.2.2.2, hm t g1⟩
      · rw [g2] at he; cases he; exact .inr rfl
  rcases key with ⟨k1, k2, k3⟩ | rfl
  · have := (hh t k1).1
    rw [k2, k3, if_pos ht] at this
    exact this
  · unfold translate
    dsimp only
    rw [if_pos ht]
    cases s.hooks v <;> rfl

/-- Hooking, calling, unhooking and calling again meets the premises. -/
example : All tiny (fun s o => OkMap s o ∧ SaneHook s o) (reset code ident) [.hookAdd 0x1000#32 7, .run 0x1000#32 false] ∧
    (step tiny (hist tiny (reset code ident) [.hookAdd 0x1000#32 7]) (.run 0x1000#32 false)).1.map (·.hook) = some (some 7) ∧
    (step tiny (hist tiny (reset code ident) [.hookAdd 0x1000#32 7, .run 0x1000#32 false, .hookRemove 0x1000#32])
      (.run 0x1000#32 false)).1.map (·.hook) = some none := by
  refine ⟨⟨⟨⟨trivial, trivial, trivial⟩, ?_⟩, ⟨⟨?_, trivial, ?_⟩, trivial⟩, trivial⟩, by decide +kernel, by decide +kernel⟩
  · intro t ht; cases ht
  · show (step tiny (reset code ident) (.hookAdd 0x1000#32 7)).2.num ≠ 32768
    decide +kernel
  · intro t ht
    have : search (step tiny (reset code ident) (.hookAdd 0x1000#32 7)).2 (phys (step tiny (reset code ident) (.hookAdd 0x1000#32 7)).2.map 0x1000#32) = none := by
      decide +kernel
    rw [this] at ht; cases ht

/-- **C51** is violated when a hook is replaced: the block calling the old callback stays in the cache. -/
theorem C51_replace_violation : hooksOf (fun _ => none) [.hookAdd 0x1000#32 1, .run 0x1000#32 false, .hookAdd 0x1000#32 2] 0x1000#32 = some 2 ∧
    (step tiny (hist tiny (reset code ident) [.hookAdd 0x1000#32 1, .run 0x1000#32 false, .hookAdd 0x1000#32 2])
      (.run 0x1000#32 false)).1.map (·.hook) = some (some 1) := by
  constructor <;> decide +kernel

/-- **C51** is violated when a hook that was called in two modes is removed: only one of its blocks is, and the
callback is still called in the other mode. -/
theorem C51_two_modes_violation :
    hooksOf (fun _ => none) [.hookAdd 0x1000#32 1, .run 0x1000#32 false, .setMode 0#32 0#32 0#32, .run 0x1000#32 false, .hookRemove 0x1000#32]
      0x1000#32 = none ∧
    (step tiny (hist tiny (reset code ident)
      [.hookAdd 0x1000#32 1, .run 0x1000#32 false, .setMode 0#32 0#32 0#32, .run 0x1000#32 false, .hookRemove 0x1000#32])
      (.run 0x1000#32 false)).1.map (·.hook) = some (some 1) := by
  constructor <;> decide +kernel

/-- **C51** is violated when a hook is added on an address whose code was cached before its page was mapped
elsewhere: only the code at the current translation is removed, and after mapping the page back the code runs
without the hook. -/
theorem C51_remapped_violation :
    hooksOf (fun _ => none) [.run 0x1000#32 false, .invlpg 0x1000#32 2#20, .hookAdd 0x1000#32 1, .invlpg 0x1000#32 1#20] 0x1000#32 = some 1 ∧
    (step tiny (hist tiny (reset code ident) [.run 0x1000#32 false, .invlpg 0x1000#32 2#20, .hookAdd 0x1000#32 1, .invlpg 0x1000#32 1#20])
      (.run 0x1000#32 false)).1.map (·.hook) = some none := by
  constructor <;> decide +kernel

/-! ### C69 -/

theorem drop_halt (s : St) (t : Tc) (h : s.halt = true) : (drop s t).halt = true := by
  have : (unlink s t.virt).halt = s.halt := by unfold unlink rsbFlushPage; dsimp only; split <;> rfl
  unfold drop
  dsimp only
  rw [this, h]; rfl

theorem drop_fields (s : St) (t : Tc) : (drop s t).now = s.now ∧ (drop s t).map = s.map ∧ (drop s t).csBase = s.csBase := by
  unfold drop unlink rsbFlushPage
  dsimp only
  split <;> exact ⟨rfl, rfl, rfl⟩

theorem drops_halt {s : St} {D : List Tc} (h : Inv s D) (l : List Tc) (hl : ∀ u, u ∈ l → In s u ∨ u ∈ D) (t : Tc)
    (ht : t ∈ l) (hin : In s t) (h1 : t.csBase = s.csBase) (h2 : t.pc = phys s.map s.now) (h3 : t.flags = s.flags) :
    (l.foldl drop s).halt = true := by
  have mono : ∀ (l : List Tc) (s : St), s.halt = true → (l.foldl drop s).halt = true := by
    intro l
    induction l with
    | nil => exact fun _ h => h
    | cons u l ih => exact fun s h => ih _ (drop_halt s u h)
  induction l generalizing s D with
  | nil => cases ht
  | cons u l ih =>
    by_cases e : u = t
    · subst e
      refine mono l _ ?_
      have hc : (unlink s u.virt).cache = s.cache := unlink_cache s u.virt
      have hf : (unlink s u.virt).csBase = s.csBase ∧ (unlink s u.virt).map = s.map ∧ (unlink s u.virt).now = s.now ∧
          (unlink s u.virt).flags = s.flags := by
        unfold unlink rsbFlushPage; dsimp only; split <;> exact ⟨rfl, rfl, rfl, rfl⟩
      unfold drop
      dsimp only
      rw [hc, hf.1, hf.2.1, hf.2.2.1, hf.2.2.2]
      rw [decide_eq_true (show u.csBase = s.csBase ∧ u.pc = phys s.map s.now ∧ u.flags = s.flags ∧ u ∈ s.cache (hash u.pc) from
        ⟨h1, h2, h3, hin⟩)]
      simp
    · have hd := inv_drop h u (hl u (.head _))
      have hf := drop_fields s u
      refine ih hd ?_ ((List.mem_cons.1 ht).resolve_left fun h => e h.symm) ?_ (by rw [hf.2.2]; exact h1)
        (by rw [hf.1, hf.2.1]; exact h2) (by rw [drop_flags]; exact h3)
      · intro w hw
        have : w ∈ s.pages (page w.pc) ∨ w ∈ D := by
          rcases hl w (.tail _ hw) with h2 | h2
          · exact .inl (h.cachePages _ w h2).2.1
          · exact .inr h2
        rcases this with h2 | h2
        · exact ((hd.pagesCache (page w.pc) w (by rw [drop_pages]; exact h2)).2)
        · exact .inr (.tail _ h2)
      · rw [in_drop]
        refine ⟨hin, .inl fun e' => e ?_⟩
        rcases hl u (.head _) with h4 | h4
        · exact (h.uniq t u hin h4 e').symm
        · exact absurd e'.symm ((h.cachePages _ t hin).2.2 u h4)

/-- **C69** (partial): a write into the running block while it executes its first instruction raises the request to
leave the block, which is checked before its next instruction. -/
theorem C69_first_instruction_partial (d : Decoder) (hl : LenOk d) (mem : BitVec 32 → BitVec 8) (map : BitVec 20 → BitVec 20)
    (os : List Op) (hs : All d Sane (reset mem map) os) (p : BitVec 32) (bs : List (BitVec 8)) (t : Tc)
    (hc : t ∈ (hist d (reset mem map) os).cache (hash t.pc)) (h1 : t.csBase = (hist d (reset mem map) os).csBase)
    (h2 : t.pc = phys (hist d (reset mem map) os).map (hist d (reset mem map) os).now)
    (h3 : t.flags = (hist d (reset mem map) os).flags)
    (hp : p.toNat % 4096 + bs.length ≤ 4096) (i j : Nat) (hi : i < t.size) (hj : j < bs.length)
    (ho : t.pc + BitVec.ofNat 32 i = p + BitVec.ofNat 32 j) :
    (step d (hist d (reset mem map) os) (.write p bs)).2.halt = true := by
  have h := inv_hist d hl os _ (inv_reset mem map) hs
  generalize hist d (reset mem map) os = s at h hc h1 h2 h3
  have g := h.good t hc
  have b1 := g.onPage
  have b2 := t.pc.isLt
  have b3 := p.isLt
  have ho := congrArg BitVec.toNat ho
  simp only [BitVec.toNat_add, BitVec.toNat_ofNat] at ho
  have hpg : page t.pc = page p := by rw [page_eq]; omega
  have hin := (h.cachePages _ t hc).2.1
  have hov : overlaps t p bs.length = true := by
    unfold overlaps
    simp only [Bool.and_eq_true, bne_iff_ne, ne_eq, Bool.not_eq_true', decide_eq_false_iff_not]
    omega
  show (Tc.write s p bs).halt = true
  unfold Tc.write
  dsimp only
  rw [if_pos (by rw [← hpg]; exact h.smcOk _ t hin)]
  show (invalidate s p bs.length).halt = true
  unfold invalidate
  dsimp only
  rw [hpg] at hin
  rw [if_neg (by intro e; rw [e] at hin; cases hin)]
  exact drops_halt h _ (fun u hu => (h.pagesCache _ u (List.mem_filter.1 hu).1).2) t (List.mem_filter.2 ⟨hin, hov⟩) hc h1 h2 h3

/-- The premises are met by the first instruction of the block at 0x1000 writing its second. -/
example : (step tiny (hist tiny (reset code ident) [.run 0x1000#32 false]) (.write 0x1001#32 [0x90#8])).2.halt = true ∧
    ((hist tiny (reset code ident) [.run 0x1000#32 false]).cache (hash 0x1000#32)).map (·.size) = [2] := by
  constructor <;> decide +kernel

/-- **C69** is violated by any later instruction: the instruction pointer has moved on, the block is not recognised
as the running one, and it continues with its old instructions although it was removed. -/
theorem C69_later_instruction_violation : ∃ t : Tc,
    (step tiny (reset code ident) (.run 0x1000#32 false)).1 = some t ∧
    (hist tiny (reset code ident) [.run 0x1000#32 false, .advance 0x1001#32, .write 0x1001#32 [0x90#8]]).cur = some t ∧
    (hist tiny (reset code ident) [.run 0x1000#32 false, .advance 0x1001#32, .write 0x1001#32 [0x90#8]]).halt = false ∧
    t ∉ (hist tiny (reset code ident) [.run 0x1000#32 false, .advance 0x1001#32, .write 0x1001#32 [0x90#8]]).cache (hash t.pc) ∧
    t.body[1]? = some (.ok [0xC3#8]) := by
  refine ⟨⟨0, 0xFFFF0000#32, 0x1000#32, 0x1000#32, 0#32, 2, [.ok [0x90#8], .ok [0xC3#8]], none⟩,
    by decide +kernel, by decide +kernel, by decide +kernel, by decide +kernel, by decide +kernel⟩

end Verif.Tc
