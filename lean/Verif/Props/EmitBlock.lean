import Verif.Lemmas.EmitBlock
/-
C99: a translated block does what its instructions do, one after the other.
-/
namespace Verif.Emit
open Host Guest
open Spec
open Flags

/-- The interrupt check leaves the block iff a request is pending that is not masked, and does not touch the guest. -/
theorem intCheck_spec (p : BitVec 32) (h : Host.St) :
    ((intCheck p h).1 = true ↔ Wanted p h.g) ∧ (intCheck p h).2.g = h.g ∧ (intCheck p h).2.r .rcx = h.r .rcx := by
  refine ⟨?_, rfl, rfl⟩
  have hb : ∀ k, k < 32 → ((p &&& (h.g.fl.eflags ||| ~~~0x200#32)).getLsbD k = true ↔
      p.getLsbD k = true ∧ (k = 9 → h.g.fl.eflags.getLsbD 9 = true)) := by
    intro k hk
    generalize h.g.fl.eflags = x
    have hm : ∀ k, k < 32 → (~~~0x200#32 : BitVec 32).getLsbD k = !decide (k = 9) := by decide
    rw [BitVec.getLsbD_and, BitVec.getLsbD_or, hm k hk, Bool.and_eq_true, Bool.or_eq_true]
    by_cases h9 : k = 9
    · subst h9; simp
    · simp [h9]
  show decide _ = true ↔ _
  rw [decide_eq_true_iff]
  constructor
  · intro hd
    apply Classical.byContradiction
    intro hn
    apply hd
    apply BitVec.eq_of_getLsbD_eq
    intro k hk
    rw [BitVec.getLsbD_zero]
    exact Bool.eq_false_iff.2 fun hx => hn ⟨k, hk, (hb k hk).1 hx⟩
  · rintro ⟨k, hk, hx⟩ hz
    have := (hb k hk).2 hx
    rw [hz, BitVec.getLsbD_zero] at this
    cases this

/-- From any instruction of the block on. -/
theorem block_from {es : Nat → Env} {ctx : BitVec 64} (hctx : ∀ n, (es n).ctx = ctx) (pend : Nat → BitVec 32) (l : List Item) :
    ∀ n eip (h : Host.St), (∀ k it, l[k]? = some it → Legal (es (n + k)) it.insn) → h.r .rcx = ctx → Clean h.g.fl →
      ∃ o, Seq es pend n l eip h.g o ∧ Sees (runBlock es pend n l eip h) o := by
  induction l with
  | nil => intro n eip h _ _ _; exact ⟨_, .done, rfl, rfl⟩
  | cons it l ih =>
    intro n eip h hl hc hcl
    have hct := exec_ends it.insn (hl 0 it rfl) (by rw [hc, hctx]) hcl
    rw [Nat.add_zero] at hct
    rcases hct with ⟨h', a1, a2, hr, a3, hcl'⟩ | ⟨g', a1, a2⟩
    · have hl' : ∀ k it', l[k]? = some it' → Legal (es (n + 1 + k)) it'.insn := by
        intro k it' hk
        have := hl (k + 1) it' (by simpa using hk)
        rwa [show n + (k + 1) = n + 1 + k by omega] at this
      have hsp := intCheck_spec (pend n) h'
      unfold runBlock
      rw [a1]
      dsimp only
      cases hck : it.check with
      | false =>
        obtain ⟨o, b1, b2⟩ := ih (n + 1) it.next h' hl' (by rw [a2, hctx]) hcl'
        exact ⟨o, .go hr a3 (by simp [hck]) b1, by simpa [hck] using b2⟩
      | true =>
        rw [if_pos rfl]
        by_cases hi : (intCheck (pend n) h').1 = true
        · rw [if_pos hi]
          exact ⟨_, .int hr a3 hck (hsp.1.1 hi), rfl, hsp.2.1⟩
        · rw [if_neg hi]
          obtain ⟨o, b1, b2⟩ := ih (n + 1) it.next (intCheck (pend n) h').2 hl' (by rw [hsp.2.2, a2, hctx]) (by rw [hsp.2.1]; exact hcl')
          rw [hsp.2.1] at b1
          exact ⟨o, .go hr a3 (fun hw => hi (hsp.1.2 hw.2)) b1, b2⟩
    · unfold runBlock
      rw [a1]
      exact ⟨_, .fault a2, rfl, rfl⟩

/-- C99: whatever the instructions of a translated block, its host code does to the guest what the instructions do one after the other: it never gets
stuck, each instruction has its effect on the state the previous one left, a fault stops it at the first instruction with an access that is not allowed with EIP at
that instruction, and an interrupt at the first check after which a request is pending and not masked, with EIP at the next instruction. -/
theorem C99_block_partial {es : Nat → Env} {ctx : BitVec 64} (hctx : ∀ n, (es n).ctx = ctx) (pend : Nat → BitVec 32) (l : List Item)
    (eip : BitVec 32) (h : Host.St) (hl : ∀ k it, l[k]? = some it → Legal (es k) it.insn) (hc : h.r .rcx = ctx) (hcl : Clean h.g.fl) :
    ∃ o, Seq es pend 0 l eip h.g o ∧ Sees (runBlock es pend 0 l eip h) o :=
  block_from hctx pend l 0 eip h (by simpa using hl) hc hcl

/-- The bytes of the first `n` instructions. -/
def offset (l : List (Insn × Nat)) (n : Nat) : Nat := ((l.take n).map (·.2)).sum

/-- The page of an address. -/
def page (a : BitVec 32) : BitVec 32 := a >>> 12

theorem page_iff (a b : BitVec 32) : (a &&& 0xFFFFF000#32 = b &&& 0xFFFFF000#32) ↔ page a = page b := by
  unfold page
  constructor
  · intro h
    have h2 := congrArg (fun x : BitVec 32 => x >>> 12) h
    have e : ∀ x : BitVec 32, (x &&& 0xFFFFF000#32) >>> 12 = x >>> 12 := by intro x; bits32
    simpa only [e] using h2
  · intro h
    have h2 := congrArg (fun x : BitVec 32 => x <<< 12) h
    have e : ∀ x : BitVec 32, (x >>> 12) <<< 12 = x &&& 0xFFFFF000#32 := by intro x; bits32
    simpa only [e] using h2

theorem crosses_iff (pc : BitVec 32) (n : Nat) :
    crosses pc n = false ↔ page (pc + BitVec.ofNat 32 n - 1#32) = page pc ∧ page (pc + BitVec.ofNat 32 n) = page pc := by
  unfold crosses
  rw [Bool.or_eq_false_iff]
  simp only [decide_eq_false_iff_not, Decidable.not_not, page_iff]
  exact and_congr eq_comm eq_comm

theorem offset_succ (x : Insn × Nat) (l : List (Insn × Nat)) (n : Nat) : offset (x :: l) (n + 1) = x.2 + offset l n := by
  simp [offset]

/-- C99: the `n`-th instruction of a block is the `n`-th one decoded; after it EIP holds the offset in CS of the instruction that follows it; all
instructions of the block start on the page of the first and all but the last lie on it entirely; and after every instruction but the last there is
an interrupt check. -/
theorem C99_layout (base : BitVec 32) (one : Bool) (l : List (Insn × Nat)) : ∀ (pc : BitVec 32) (n : Nat) (it : Item),
    (layout base one pc l)[n]? = some it →
      (∃ k, l[n]? = some (it.insn, k)) ∧ it.next = pc + BitVec.ofNat 32 (offset l (n + 1)) - base ∧
      page (pc + BitVec.ofNat 32 (offset l n)) = page pc ∧
      ((layout base one pc l)[n + 1]? ≠ none → it.check = true ∧ one = false ∧
        page (pc + BitVec.ofNat 32 (offset l (n + 1)) - 1#32) = page pc) := by
  induction l with
  | nil => intro pc n it h; simp [layout] at h
  | cons x l ih =>
    obtain ⟨i, k⟩ := x
    intro pc n it h
    by_cases hs : (one || crosses pc k) = true
    · have hlay : layout base one pc ((i, k) :: l) = [⟨i, pc + BitVec.ofNat 32 k - base, false⟩] := by
        rw [layout, if_pos hs]
      rw [hlay] at h ⊢
      cases n with
      | zero =>
        simp only [List.getElem?_cons_zero, Option.some.injEq] at h
        subst h
        refine ⟨⟨k, rfl⟩, by simp [offset], by simp [offset], fun hn => absurd rfl hn⟩
      | succ n => simp at h
    · have hlay : layout base one pc ((i, k) :: l) =
          ⟨i, pc + BitVec.ofNat 32 k - base, true⟩ :: layout base one (pc + BitVec.ofNat 32 k) l := by rw [layout, if_neg hs]
      rw [Bool.not_eq_true, Bool.or_eq_false_iff, crosses_iff] at hs
      rw [hlay] at h ⊢
      cases n with
      | zero =>
        simp only [List.getElem?_cons_zero, Option.some.injEq] at h
        subst h
        refine ⟨⟨k, rfl⟩, by simp [offset], by simp [offset], fun _ => ⟨rfl, hs.1, ?_⟩⟩
        simpa [offset] using hs.2.1
      | succ n =>
        rw [List.getElem?_cons_succ] at h
        obtain ⟨h1, h2, h3, h4⟩ := ih (pc + BitVec.ofNat 32 k) n it h
        rw [List.getElem?_cons_succ, List.getElem?_cons_succ, offset_succ, offset_succ]
        have ha : ∀ m, pc + BitVec.ofNat 32 k + BitVec.ofNat 32 m = pc + BitVec.ofNat 32 (k + m) := by
          intro m; rw [BitVec.add_assoc, ← BitVec.ofNat_add]
        rw [ha] at h2 h3 h4
        rw [hs.2.2] at h3 h4
        exact ⟨h1, h2, h3, h4⟩

/-- EIP after `k` instructions. -/
def eipAfter (eip : BitVec 32) (l : List Item) : Nat → BitVec 32
  | 0 => eip
  | k + 1 => match l[k]? with
    | some it => it.next
    | none => eip

/-- `s 0`, `s 1`, ... `s k` are the states before and after each of the first `k` instructions, none of which faults; an interrupt is wanted after none of
them but, it may be, the last. -/
def Path (es : Nat → Env) (pend : Nat → BitVec 32) (n : Nat) (l : List Item) (k : Nat) (s : Nat → G) : Prop :=
  ∀ j < k, ∃ it, l[j]? = some it ∧ Runs (es (n + j)) (s j) it.insn ∧ Gives (es (n + j)) (s j) (s (j + 1)) it.insn ∧
    (j + 1 < k → it.check = true → ¬ Wanted (pend (n + j)) (s (j + 1)))

/-- What the end of a block says about its path. -/
def EndsAt (es : Nat → Env) (pend : Nat → BitVec 32) (n : Nat) (l : List Item) (eip : BitVec 32) (k : Nat) (s : Nat → G) : End → Prop
  | .ends e g => k = l.length ∧ e = eipAfter eip l k ∧ g = s k ∧ ∀ j it, l[j]? = some it → it.check = true → ¬ Wanted (pend (n + j)) (s (j + 1))
  | .fault e g => e = eipAfter eip l k ∧ ∃ it, l[k]? = some it ∧ Faults (es (n + k)) (s k) g it.insn
  | .int e g => e = eipAfter eip l k ∧ g = s k ∧ ∃ j it, k = j + 1 ∧ l[j]? = some it ∧ it.check = true ∧ Wanted (pend (n + j)) g

theorem seq_path {es : Nat → Env} {pend : Nat → BitVec 32} {n : Nat} {l : List Item} {eip : BitVec 32} {g : G} {o : End}
    (hs : Seq es pend n l eip g o) : ∃ k s, s 0 = g ∧ Path es pend n l k s ∧ EndsAt es pend n l eip k s o := by
  induction hs with
  | @done n eip g => exact ⟨0, fun _ => g, rfl, fun j hj => absurd hj (Nat.not_lt_zero j), rfl, rfl, rfl, fun j it h => by cases h⟩
  | @fault n it l eip g g' h1 => exact ⟨0, fun _ => g, rfl, fun j hj => absurd hj (Nat.not_lt_zero j), rfl, it, rfl, h1⟩
  | @int n it l eip g g' h1 h2 h3 h4 =>
    refine ⟨1, fun j => if j = 0 then g else g', rfl, fun j hj => ?_, rfl, rfl, 0, it, rfl, rfl, h3, h4⟩
    obtain rfl : j = 0 := by omega
    exact ⟨it, rfl, h1, h2, fun hx => by omega⟩
  | @go n it l eip g g' o h1 h2 h3 hs ih =>
    obtain ⟨k, s, e0, hp, he⟩ := ih
    refine ⟨k + 1, fun j => match j with | 0 => g | j + 1 => s j, rfl, fun j hj => ?_, ?_⟩
    · cases j with
      | zero => exact ⟨it, rfl, h1, by rw [← e0] at h2; exact h2, fun _ hc hw => h3 ⟨hc, by rw [← e0]; exact hw⟩⟩
      | succ j =>
        obtain ⟨it', a1, a2, a3, a4⟩ := hp j (by omega)
        rw [show n + (j + 1) = n + 1 + j by omega]
        exact ⟨it', by simpa using a1, a2, a3, fun hx => a4 (by omega)⟩
    · have hee : eipAfter eip (it :: l) (k + 1) = eipAfter it.next l k ∨ k > l.length := by
        cases k with
        | zero => exact .inl rfl
        | succ k =>
          by_cases hk : k < l.length
          · left
            show (match (it :: l)[k + 1]? with | some it => it.next | none => eip) = (match l[k]? with | some it' => it'.next | none => it.next)
            rw [List.getElem?_cons_succ, List.getElem?_eq_getElem hk]
          · exact .inr (by omega)
      have hkl : k ≤ l.length := by
        cases k with
        | zero => omega
        | succ k =>
          obtain ⟨it', a1, _⟩ := hp k (by omega)
          have := (List.getElem?_eq_some_iff.1 a1).1
          omega
      have hee := hee.resolve_right (by omega)
      cases o with
      | ends e g2 =>
        obtain ⟨b1, b2, b3, b4⟩ := he
        refine ⟨by simp [b1], by rw [hee]; exact b2, b3, fun j it' hj hck => ?_⟩
        cases j with
        | zero =>
          obtain rfl : it = it' := by simpa using hj
          exact fun hw => h3 ⟨hck, by rw [← e0]; exact hw⟩
        | succ j =>
          rw [show n + (j + 1) = n + 1 + j by omega]
          exact b4 j it' (by simpa using hj) hck
      | fault e g2 =>
        obtain ⟨b1, it', b2, b3⟩ := he
        exact ⟨by rw [hee]; exact b1, it', by simpa using b2, by rw [show n + (k + 1) = n + 1 + k by omega]; exact b3⟩
      | int e g2 =>
        obtain ⟨b1, b2, j, it', b3, b4, b5, b6⟩ := he
        exact ⟨by rw [hee]; exact b1, b2, j + 1, it', by rw [b3], by simpa using b4, b5, by
          rw [show n + (j + 1) = n + 1 + j by omega]; exact b6⟩

/-- C99, in terms of addresses: a block translated from the instructions at `pc` on, entered with EIP there, ends after some number `k` of its instructions
took effect in order, with EIP the offset in CS of the next one: at its end, or because the next one faults, or because an interrupt is wanted. -/
theorem C99_addresses_partial {es : Nat → Env} {ctx : BitVec 64} (hctx : ∀ n, (es n).ctx = ctx) (pend : Nat → BitVec 32) (base : BitVec 32) (one : Bool)
    (pc : BitVec 32) (l : List (Insn × Nat)) (h : Host.St) (hl : ∀ k x, l[k]? = some x → Legal (es k) x.1) (hc : h.r .rcx = ctx) (hcl : Clean h.g.fl) :
    ∃ (k : Nat) (s : Nat → G), s 0 = h.g ∧ k ≤ (layout base one pc l).length ∧
      (∀ j < k, ∃ i n, l[j]? = some (i, n) ∧ Runs (es j) (s j) i ∧ Gives (es j) (s j) (s (j + 1)) i ∧
        (j + 1 < k → ¬ Wanted (pend j) (s (j + 1)))) ∧
      match runBlock es pend 0 (layout base one pc l) (pc - base) h with
      | .ends e h' => k = (layout base one pc l).length ∧ e = pc + BitVec.ofNat 32 (offset l k) - base ∧ h'.g = s k ∧
          ∀ j it, (layout base one pc l)[j]? = some it → it.check = true → ¬ Wanted (pend j) (s (j + 1))
      | .fault e g => e = pc + BitVec.ofNat 32 (offset l k) - base ∧ ∃ i n, l[k]? = some (i, n) ∧ Faults (es k) (s k) g i
      | .int e h' => e = pc + BitVec.ofNat 32 (offset l k) - base ∧ h'.g = s k ∧ 0 < k ∧ Wanted (pend (k - 1)) h'.g
      | .stuck => False := by
  have hlay : ∀ k it, (layout base one pc l)[k]? = some it → Legal (es k) it.insn := by
    intro k it hk
    obtain ⟨⟨n, hn⟩, _⟩ := C99_layout base one l pc k it hk
    exact hl k _ hn
  obtain ⟨o, hs, hv⟩ := C99_block_partial hctx pend (layout base one pc l) (pc - base) h hlay hc hcl
  obtain ⟨k, s, e0, hp, he⟩ := seq_path hs
  have hk : k ≤ (layout base one pc l).length := by
    cases k with
    | zero => omega
    | succ k =>
      obtain ⟨it', a1, _⟩ := hp k (by omega)
      have := (List.getElem?_eq_some_iff.1 a1).1
      omega
  have heip : eipAfter (pc - base) (layout base one pc l) k = pc + BitVec.ofNat 32 (offset l k) - base := by
    cases k with
    | zero => simp [eipAfter, offset]
    | succ k =>
      obtain ⟨it', a1, _⟩ := hp k (by omega)
      show (match (layout base one pc l)[k]? with | some it => it.next | none => pc - base) = _
      rw [a1]
      exact (C99_layout base one l pc k it' a1).2.1
  refine ⟨k, s, e0, hk, fun j hj => ?_, ?_⟩
  · obtain ⟨it, a1, a2, a3, a4⟩ := hp j hj
    obtain ⟨⟨n, hn⟩, _, _, hx⟩ := C99_layout base one l pc j it a1
    rw [Nat.zero_add] at a2 a3 a4
    refine ⟨it.insn, n, hn, a2, a3, fun hjk => a4 hjk (hx ?_).1⟩
    rw [List.getElem?_eq_getElem (by omega)]
    exact fun hx => by cases hx
  · generalize runBlock es pend 0 (layout base one pc l) (pc - base) h = out at hv ⊢
    cases out with
    | ends e h' => cases o with
      | ends e2 g2 => obtain ⟨rfl, rfl⟩ := hv; exact ⟨he.1, by rw [← heip]; exact he.2.1, he.2.2.1, fun j it hj hk => by simpa using he.2.2.2 j it hj hk⟩
      | fault e2 g2 => exact hv.elim
      | int e2 g2 => exact hv.elim
    | fault e g => cases o with
      | ends e2 g2 => exact hv.elim
      | fault e2 g2 =>
        obtain ⟨rfl, rfl⟩ := hv
        obtain ⟨b1, it, b2, b3⟩ := he
        obtain ⟨⟨n, hn⟩, _⟩ := C99_layout base one l pc k it b2
        rw [Nat.zero_add] at b3
        exact ⟨by rw [← heip]; exact b1, it.insn, n, hn, b3⟩
      | int e2 g2 => exact hv.elim
    | int e h' => cases o with
      | ends e2 g2 => exact hv.elim
      | fault e2 g2 => exact hv.elim
      | int e2 g2 =>
        obtain ⟨rfl, rfl⟩ := hv
        obtain ⟨b1, b2, j, it, rfl, b4, b5, b6⟩ := he
        rw [Nat.zero_add] at b6
        exact ⟨by rw [← heip]; exact b1, b2, by omega, b6⟩
    | stuck => cases o <;> exact hv.elim

/-- C99: the word the interrupt handler gets (EDX) is the set of the requests that are pending and not masked, and it is not empty. -/
theorem C99_interrupt (es : Nat → Env) (pend : Nat → BitVec 32) (l : List Item) : ∀ (n : Nat) (eip : BitVec 32) (h h' : Host.St) (e : BitVec 32),
    runBlock es pend n l eip h = .int e h' → ∃ k, k < l.length ∧ rd h' .d .rdx ≠ 0#32 ∧
      ∀ b < 32, (rd h' .d .rdx).getLsbD b = true ↔ (pend (n + k)).getLsbD b = true ∧ (b = 9 → h'.g.fl.eflags.getLsbD 9 = true) := by
  induction l with
  | nil => intro n eip h h' e hr; cases hr
  | cons it l ih =>
    intro n eip h h' e hr
    unfold runBlock at hr
    split at hr
    · rename_i h1 hx
      split at hr
      · split at hr
        · rename_i hc hi
          cases hr
          refine ⟨0, by simp, ?_, fun b hb => ?_⟩
          all_goals
            have hrd : rd (intCheck (pend n) h1).2 .d .rdx = pend n &&& (h1.g.fl.eflags ||| ~~~0x200#32) := by
              show (BitVec.setWidth 64 (pend n &&& (h1.g.fl.eflags ||| ~~~0x200#32))).setWidth 32 = _
              rw [BitVec.setWidth_setWidth_of_le _ (by decide), BitVec.setWidth_eq]
            rw [hrd]
          · exact of_decide_eq_true hi
          · show _ ↔ _ ∧ (b = 9 → h1.g.fl.eflags.getLsbD 9 = true)
            generalize h1.g.fl.eflags = x
            have hm : ∀ k, k < 32 → (~~~0x200#32 : BitVec 32).getLsbD k = !decide (k = 9) := by decide
            rw [BitVec.getLsbD_and, BitVec.getLsbD_or, hm b hb, Bool.and_eq_true, Bool.or_eq_true, Nat.add_zero]
            by_cases h9 : b = 9
            · subst h9; simp only [decide_true, Bool.not_true, Bool.false_eq_true, or_false, forall_const]
            · simp [h9]
        · obtain ⟨k, a1, a2, a3⟩ := ih _ _ _ _ _ hr
          exact ⟨k + 1, by simp; omega, a2, by rw [show n + (k + 1) = n + 1 + k by omega]; exact a3⟩
      · obtain ⟨k, a1, a2, a3⟩ := ih _ _ _ _ _ hr
        exact ⟨k + 1, by simp; omega, a2, by rw [show n + (k + 1) = n + 1 + k by omega]; exact a3⟩
    · cases hr
    · cases hr

/-- A block: ADD EAX, EBX; MOV [EBX], EAX; INC EAX; PUSH EAX at 0x1000 with CS at 0. -/
def exBlock : List (Insn × Nat) :=
  [(.rm (.alu .add .d (.rmR ⟨3, false⟩)) (.reg ⟨0, false⟩), 2),
   (.rm (.movRmR .d ⟨0, false⟩) (.mem ⟨true, .modrm ⟨some 3, none, none, false⟩, 3, false, true⟩), 2),
   (.rm (.incDec true .d) (.reg ⟨0, false⟩), 1),
   (.rm (.push ⟨true, false⟩ .d) (.reg ⟨0, false⟩), 1)]

/-- EIP, EAX and kind of a block's end. -/
def exEnd : BOut → Nat × BitVec 32 × BitVec 32
  | .ends e h => (0, e, h.g.gpr 0)
  | .fault e g => (1, e, g.gpr 0)
  | .int e h => (2, e, h.g.gpr 0)
  | .stuck => (3, 0, 0)

/-- Not writable any more from the third instruction on. -/
def exRo (n : Nat) : Env := if n < 3 then exEnv else { exEnv with ok := fun _ _ w => !w }

example : exEnd (runBlock (fun _ => exEnv) (fun _ => 0#32) 0 (layout 0#32 false 0x1000#32 exBlock) 0x1000#32 exSt) = (0, 0x1006#32, 0x301#32) := by
  decide +kernel
example : exEnd (runBlock exRo (fun _ => 0#32) 0 (layout 0#32 false 0x1000#32 exBlock) 0x1000#32 exSt) = (1, 0x1005#32, 0x301#32) := by
  decide +kernel
example : exEnd (runBlock (fun _ => exEnv) (fun n => if n = 1 then 2#32 else 0#32) 0 (layout 0#32 false 0x1000#32 exBlock) 0x1000#32 exSt) =
    (2, 0x1004#32, 0x300#32) := by decide +kernel
example : exEnd (runBlock (fun _ => exEnv) (fun _ => 0x200#32) 0 (layout 0#32 false 0x1000#32 exBlock) 0x1000#32 exSt) = (0, 0x1006#32, 0x301#32) := by
  decide +kernel
example : exEnd (runBlock (fun _ => exEnv) (fun _ => 0#32) 0 (layout 0x400#32 false 0xFFD#32 exBlock) 0xBFD#32 exSt) = (0, 0xC01#32, 0x300#32) := by
  decide +kernel
example : ∀ (k : Nat) (x : Insn × Nat), exBlock[k]? = some x → Legal exEnv x.1 := by
  intro k x hk
  have hm : x ∈ exBlock := List.mem_of_getElem? hk
  simp only [exBlock, List.mem_cons, List.not_mem_nil, or_false] at hm
  rcases hm with rfl | rfl | rfl | rfl
  · exact ⟨fun hx => (by cases hx), rfl⟩
  · exact ⟨trivial, ⟨fun hx => (by cases hx), ⟨fun hx => (by cases hx), fun i n hx => (by cases hx)⟩⟩, fun hx => (by cases hx), rfl⟩
  · exact ⟨fun hx => (by cases hx), rfl⟩
  · exact ⟨⟨.inr rfl, fun hx => by cases hx⟩, rfl⟩

-- INC EAX; REP STOSB of five bytes at 0x2FFE; PUSH EAX: the block stops at the REP STOSB, to be restarted with three bytes to go
example : (match runBlock (fun _ => exEnv) (fun _ => 0#32) 0 (layout 0#32 false 0x1000#32
    [(.rm (.incDec true .d) (.reg ⟨0, false⟩), 1), (.str (exStr .stos .b true (some .rep)), 2), (.rm (.push ⟨true, false⟩ .d) (.reg ⟨0, false⟩), 1)])
    0x1000#32 (exIdx 0x76#32 5#32 0#32 0x2FFE#32 false) with
    | .fault e g => [e.toNat, (g.gpr 0).toNat, (g.gpr 1).toNat, (g.gpr 7).toNat, (g.mem 0x2FFF#32).toNat]
    | _ => []) = [0x1001, 0x77, 3, 0x3000, 0x77] := by decide +kernel

/-- MOV AX, 123; MOV CL, 10; DIV CL; LAHF; AAD; BTS EDX, 3; PUSHF; the divisor `d` in place of the ten. -/
def exDiv (d : BitVec 64) : List (Insn × Nat) :=
  [(.rm (.movImm .w 123#64) (.reg ⟨0, false⟩), 4), (.rm (.movImm .b d) (.reg ⟨1, false⟩), 2), (.rm (.div false .b 0x1006#64) (.reg ⟨1, false⟩), 2),
   (.aad 10#8, 2), (.rm (.bit 3 .d (.imm 3#64)) (.reg ⟨2, false⟩), 4), (.sahf, 1), (.pushf ⟨true, false⟩ .d false, 1)]

-- 123 = 12 * 10 + 3, AAD then makes 12 + 3 * 10 = 42 of it; divided by zero the block stops at the DIV
example : exEnd (runBlock (fun _ => exEnv) (fun _ => 0#32) 0 (layout 0#32 false 0x1000#32 (exDiv 10#64)) 0x1000#32 exSt) = (0, 0x1010#32, 42#32) := by
  decide +kernel
example : exEnd (runBlock (fun _ => exEnv) (fun _ => 0#32) 0 (layout 0#32 false 0x1000#32 (exDiv 0#64)) 0x1000#32 exSt) = (1, 0x1006#32, 123#32) := by
  decide +kernel
example : ∀ (k : Nat) (x : Insn × Nat), (exDiv 10#64)[k]? = some x → Legal exEnv x.1 := by
  intro k x hk
  have hm : x ∈ exDiv 10#64 := List.mem_of_getElem? hk
  simp only [exDiv, List.mem_cons, List.not_mem_nil, or_false] at hm
  rcases hm with rfl | rfl | rfl | rfl | rfl | rfl | rfl
  · exact ⟨trivial, rfl⟩
  · exact ⟨trivial, rfl⟩
  · exact ⟨⟨fun hx => (by cases hx), fun hx => (by cases hx)⟩, rfl⟩
  · trivial
  · exact ⟨.inr rfl, rfl⟩
  · trivial
  · exact ⟨⟨.inr rfl, fun hx => (by cases hx)⟩, fun hx => (by cases hx)⟩

/-- C99 does not hold with the state at a fault exactly that before the faulting instruction: XCHG with memory that is only readable has changed its register. -/
theorem C99_fault_violation : ∃ (e : Env) (h : Host.St) (l : List Item) (eip : BitVec 32) (g : G), h.r .rcx = e.ctx ∧ Clean h.g.fl ∧
    (∀ it ∈ l, Legal e it.insn) ∧ l.length = 1 ∧ runBlock (fun _ => e) (fun _ => 0#32) 0 l eip h = .fault eip g ∧ g.gpr 0 ≠ h.g.gpr 0 := by
  refine ⟨{ exEnv with ok := fun _ _ w => !w }, exSt,
    [⟨.rm (.xchg .d ⟨0, false⟩) (.mem ⟨true, .modrm ⟨some 3, none, none, false⟩, 3, false, true⟩), 0x1002#32, true⟩], 0x1000#32,
    wrG exSt.g .d ⟨0, false⟩ 0x80808080#32, rfl, rfl, ?_, rfl, rfl, by decide⟩
  intro it hm
  simp only [List.mem_cons, List.not_mem_nil, or_false] at hm
  subst hm
  exact ⟨trivial, ⟨fun hx => (by cases hx), ⟨fun hx => (by cases hx), fun i n hx => (by cases hx)⟩⟩, fun hx => (by cases hx), rfl⟩

end Verif.Emit
