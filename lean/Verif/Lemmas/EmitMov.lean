import Verif.Model.EmitMov
import Verif.Model.Frames
import Verif.Lemmas.EmitReal
import Verif.Lemmas.EmitMore
import Verif.Lemmas.GuestMem
/-
Lemmas on the emitted stack accesses: they do what Model/Stack.lean says.
-/
namespace Verif.Emit
open Host Guest

/-- The stack as Model/Stack.lean sees it, with the stack pointer `p`. -/
def view (e : Env) (s : Ss) (g : G) (p : BitVec 32) : Stack.St := ⟨p, g.gpr 5, e.seg 2, s.ss32, s.flat, g.mem⟩

/-- (E)BX is the stack pointer `p`. -/
def Ptr (s : Ss) (h : St) (p : BitVec 32) : Prop :=
  rd h (spSz s.ss32) .rbx = p.setWidth (spSz s.ss32).bits

/-- The offset of the item at `p`. -/
def itemOff (s : Ss) (p : BitVec 32) : BitVec 32 := if s.ss32 then p else (p.setWidth 16 : BitVec 16).setWidth 32

/-- The address of the item at (E)BX. -/
theorem itemAddr_run {e : Env} {h : St} (hc : h.r .rcx = e.ctx) (s : Ss) (p : BitVec 32) (hp : Ptr s h p) :
    ∃ h', run e 0 (itemAddr s) h = .next 0 h' ∧ h'.g = h.g ∧ (∀ r, r ≠ .rdx → h'.r r = h.r r) ∧ h'.loc = h.loc ∧
      rd h' .d .rdx = Stack.addr (view e s h.g p) (itemOff s p) := by
  obtain ⟨ss32, flat⟩ := s
  unfold itemAddr Stack.addr view itemOff
  unfold Ptr spSz at hp
  cases ss32 <;> cases flat <;> simp only [Bool.false_eq_true, if_false, if_true] at hp ⊢
  · hexec' [hc]
    refine ⟨_, rfl, ?_⟩
    hexec' [hc, hp]
    exact ⟨trivial, fun r hr => by rw [wr_r_ne _ _ hr, wr_r_ne _ _ hr], trivial, congrArg (fun x => BitVec.setWidth 32 (w := 16) x + e.seg 2) hp⟩
  · hexec' [hc]
    refine ⟨_, rfl, ?_⟩
    hexec' [hc, hp]
    exact ⟨trivial, fun r hr => by rw [wr_r_ne _ _ hr], trivial, congrArg (fun x => BitVec.setWidth 32 (w := 16) x) hp⟩
  · hexec' [hc]
    refine ⟨_, rfl, ?_⟩
    hexec' [hc, hp]
    exact ⟨trivial, fun r hr => by rw [wr_r_ne _ _ hr, wr_r_ne _ _ hr], trivial, congrArg (· + e.seg 2) (Eq.trans hp (BitVec.setWidth_eq _))⟩
  · hexec' [hc]
    refine ⟨_, rfl, ?_⟩
    hexec' [hc, hp]
    exact ⟨trivial, fun r hr => by rw [wr_r_ne _ _ hr], trivial, Eq.trans hp (BitVec.setWidth_eq _)⟩

/-- The stack pointer moved by `k` bytes. -/
def bumped (s : Ss) (p : BitVec 32) (k : BitVec 32) : BitVec 32 :=
  if s.ss32 then p + k else Stack.setLow p (p.setWidth 16 + k.setWidth 16)

theorem setLow_low (p : BitVec 32) (v : BitVec 16) : (Stack.setLow p v).setWidth 16 = v := by
  unfold Stack.setLow
  bits16

theorem ptr_bump {s : Ss} {h h' : St} {p k : BitVec 32} (hp : Ptr s h p)
    (he : rd h' (spSz s.ss32) .rbx = rd h (spSz s.ss32) .rbx + k.setWidth (spSz s.ss32).bits) : Ptr s h' (bumped s p k) := by
  unfold Ptr at hp ⊢
  rw [he, hp]
  obtain ⟨ss32, flat⟩ := s
  cases ss32
  · exact (setLow_low p _).symm
  · show BitVec.setWidth 32 p + BitVec.setWidth 32 k = BitVec.setWidth 32 (p + k)
    rw [BitVec.setWidth_eq, BitVec.setWidth_eq, BitVec.setWidth_eq]

theorem ptr_same {s : Ss} {h h' : St} {p : BitVec 32} (hp : Ptr s h p) (he : h'.r .rbx = h.r .rbx) : Ptr s h' p := by
  unfold Ptr rd at hp ⊢
  rw [he]; exact hp

/-- The pointer after a push. -/
def pushed (s : Ss) (p : BitVec 32) (k : Nat) : BitVec 32 := bumped s p (- BitVec.ofNat 32 k)

theorem neg_low (k : Nat) : ((- BitVec.ofNat 32 k).setWidth 16 : BitVec 16) = - BitVec.ofNat 16 k := by
  have : ∀ x : BitVec 32, ((- x).setWidth 16 : BitVec 16) = - x.setWidth 16 := by
    intro x
    apply BitVec.eq_of_toNat_eq
    rw [BitVec.toNat_setWidth, BitVec.toNat_neg, BitVec.toNat_neg, BitVec.toNat_setWidth]
    have := x.isLt
    omega
  rw [this]
  congr 1
  apply BitVec.eq_of_toNat_eq
  rw [BitVec.toNat_setWidth, BitVec.toNat_ofNat, BitVec.toNat_ofNat]
  omega

theorem push_eq (e : Env) (s : Ss) (g : G) (p : BitVec 32) (k v : Nat) :
    Stack.push e.ok (view e s g p) k v =
      if e.ok (Stack.addr (view e s g p) (itemOff s (pushed s p k))) k true then
        some { view e s g p with
          esp := pushed s p k
          mem := store g.mem (Stack.addr (view e s g p) (itemOff s (pushed s p k))) k v }
      else none := by
  obtain ⟨ss32, flat⟩ := s
  cases ss32
  · have h1 : pushed ⟨false, flat⟩ p k = Stack.setLow p (p.setWidth 16 - BitVec.ofNat 16 k) := by
      show Stack.setLow p (p.setWidth 16 + (- BitVec.ofNat 32 k).setWidth 16) = _
      rw [neg_low, BitVec.sub_eq_add_neg]
    have h2 : itemOff ⟨false, flat⟩ (pushed ⟨false, flat⟩ p k) = (p.setWidth 16 - BitVec.ofNat 16 k).setWidth 32 := by
      rw [h1]
      exact congrArg (BitVec.setWidth 32) (setLow_low p _)
    rw [h2, h1]
    rfl
  · have h1 : pushed ⟨true, flat⟩ p k = p - BitVec.ofNat 32 k := (BitVec.sub_eq_add_neg _ _).symm
    have h2 : itemOff ⟨true, flat⟩ (pushed ⟨true, flat⟩ p k) = p - BitVec.ofNat 32 k := by rw [h1]; rfl
    rw [h2, h1]
    rfl

theorem low_bytes (z : Sz) (w : Bool) :
    (BitVec.ofNat 64 z.bytes).setWidth (spSz w).bits = (BitVec.ofNat 32 z.bytes).setWidth (spSz w).bits := by
  cases z <;> cases w <;> decide

/-- The pointer is moved down. -/
theorem sub_run {e : Env} {h : St} (s : Ss) (z : Sz) (p : BitVec 32) (hp : Ptr s h p) :
    ∃ h', run e 0 [.alu .sub (spSz s.ss32) .rbx (.imm (BitVec.ofNat 64 z.bytes))] h = .next 0 h' ∧ h'.g = h.g ∧
      (∀ r, r ≠ .rbx → h'.r r = h.r r) ∧ h'.loc = h.loc ∧ Ptr s h' (pushed s p z.bytes) := by
  generalize hw : spSz s.ss32 = w
  hexec' []
  refine ⟨_, rfl, ?_⟩
  hexec' []
  refine ⟨trivial, fun r hr => by rw [wr_r_ne _ _ hr], trivial, ptr_bump hp ?_⟩
  rw [hw]
  hexec' []
  have hb := low_bytes z s.ss32
  rw [hw] at hb
  rw [hb, BitVec.sub_eq_add_neg]
  congr 1
  subst hw
  cases s.ss32
  · exact (by intro z; cases z <;> decide : ∀ z : Sz, - (BitVec.ofNat 32 z.bytes).setWidth 16 = (- BitVec.ofNat 32 z.bytes).setWidth 16) z
  · show - BitVec.setWidth 32 _ = BitVec.setWidth 32 _
    rw [BitVec.setWidth_eq, BitVec.setWidth_eq]

/-- A store at the address in EDX. -/
theorem stMem_run {e : Env} {h : St} (hc : h.r .rcx = e.ctx) (z : Sz) :
    (e.ok (rd h .d .rdx) z.bytes true = true → ∃ h', run e 0 [.stMem z] h = .next 0 h' ∧
      h'.g = { h.g with mem := store h.g.mem (rd h .d .rdx) z.bytes (rd h z .r8).toNat } ∧ h'.r .rcx = e.ctx ∧ h'.r .rbx = h.r .rbx ∧
      h'.loc = h.loc) ∧
    (e.ok (rd h .d .rdx) z.bytes true = false → run e 0 [.stMem z] h = .fault h.g) := by
  refine ⟨fun hk => ?_, fun hk => ?_⟩
  · hexec' [hc, hk]
    exact ⟨_, rfl, rfl, by hexec' [], by hexec' [], rfl⟩
  · hexec' [hc, hk, Bool.false_eq_true]

theorem ldMem_run {e : Env} {h : St} (hc : h.r .rcx = e.ctx) (z : Sz) :
    (e.ok (rd h .d .rdx) z.bytes false = true → ∃ h', run e 0 [.ldMem z] h = .next 0 h' ∧
      h'.g = h.g ∧ rd h' z .rax = BitVec.ofNat z.bits (load h.g.mem (rd h .d .rdx) z.bytes) ∧ h'.r .rcx = e.ctx ∧ h'.r .rbx = h.r .rbx ∧
      h'.loc = h.loc) ∧
    (e.ok (rd h .d .rdx) z.bytes false = false → run e 0 [.ldMem z] h = .fault h.g) := by
  refine ⟨fun hk => ?_, fun hk => ?_⟩
  · hexec' [hc, hk]
    refine ⟨_, rfl, rfl, ?_⟩
    hexec' []
    exact ⟨trivial, trivial, trivial, trivial⟩
  · hexec' [hc, hk, Bool.false_eq_true]

/-- The value pushed. -/
def pushVal (h : St) (z : Sz) : Option (BitVec 64) → BitVec z.bits
  | some v => v.setWidth z.bits
  | none => rd h z .r8

/-- gen_stack_push without ESP. -/
theorem pushAt_run {e : Env} {h : St} (hc : h.r .rcx = e.ctx) (s : Ss) (z : Sz) (v : Option (BitVec 64)) (p : BitVec 32) (hp : Ptr s h p) :
    match Stack.push e.ok (view e s h.g p) z.bytes (pushVal h z v).toNat with
    | some t => t.esp = pushed s p z.bytes ∧ ∃ h', run e 0 (pushAt s z v) h = .next 0 h' ∧ h'.g = { h.g with mem := t.mem } ∧ h'.r .rcx = e.ctx ∧
        Ptr s h' t.esp ∧ h'.loc = h.loc
    | none => run e 0 (pushAt s z v) h = .fault h.g := by
  obtain ⟨h1, r1, g1, k1, l1, p1⟩ := sub_run (e := e) s z p hp
  have c1 : h1.r .rcx = e.ctx := (k1 _ (by simp)).trans hc
  obtain ⟨h2, r2, g2, k2, l2, a2⟩ := itemAddr_run c1 s _ p1
  have c2 : h2.r .rcx = e.ctx := (k2 _ (by simp)).trans c1
  have p2 : Ptr s h2 (pushed s p z.bytes) := ptr_same p1 (k2 _ (by simp))
  have h3 : ∃ h3, run e 0 (immCode v) h2 = .next 0 h3 ∧ h3.g = h2.g ∧ h3.loc = h2.loc ∧
      (∀ r, r ≠ .r8 → h3.r r = h2.r r) ∧ rd h3 z .r8 = pushVal h z v := by
    cases v with
    | some v =>
      unfold immCode
      hexec' []
      refine ⟨_, rfl, rfl, rfl, fun r hr => by rw [wr_r_ne _ _ hr], ?_⟩
      rw [rd_wr_q]
      show BitVec.setWidth z.bits (BitVec.setWidth 64 v) = v.setWidth z.bits
      rw [BitVec.setWidth_eq]
    | none =>
      refine ⟨h2, rfl, rfl, rfl, fun _ _ => rfl, ?_⟩
      show (h2.r .r8).setWidth z.bits = (h.r .r8).setWidth z.bits
      rw [k2 _ (by simp), k1 _ (by simp)]
  obtain ⟨h3, r3, g3, l3, k3, v3⟩ := h3
  have c3 : h3.r .rcx = e.ctx := (k3 _ (by simp)).trans c2
  have p3 : Ptr s h3 (pushed s p z.bytes) := ptr_same p2 (k3 _ (by simp))
  have a3 : rd h3 .d .rdx = Stack.addr (view e s h.g p) (itemOff s (pushed s p z.bytes)) := by
    have : rd h3 .d .rdx = rd h2 .d .rdx := congrArg (BitVec.setWidth 32) (k3 _ (by simp))
    rw [this, a2, g1]; rfl
  have hg : h3.g = h.g := g3.trans (g2.trans g1)
  have hr : ∀ o, run e 0 [.stMem z] h3 = o → run e 0 (pushAt s z v) h = o := by
    intro o ho
    unfold pushAt
    rw [run_append _ r1, run_append _ r2, run_append _ r3, ho]
  obtain ⟨s1, s2⟩ := stMem_run c3 z
  rw [a3, v3, hg] at s1
  rw [a3, hg] at s2
  rw [push_eq]
  by_cases hk : e.ok (Stack.addr (view e s h.g p) (itemOff s (pushed s p z.bytes))) z.bytes true = true
  · rw [if_pos hk]
    obtain ⟨h4, r4, g4, c4, b4, l4⟩ := s1 hk
    exact ⟨rfl, h4, hr _ r4, g4, c4, ptr_same p3 b4, l4.trans (l3.trans (l2.trans l1))⟩
  · rw [if_neg hk]
    exact hr _ (s2 (by simpa using hk))

/-- The guest's registers with another ESP. -/
def setEsp (g : G) (p : BitVec 32) : G := { g with gpr := fun i => if i = 4 then p else g.gpr i }

theorem setLow_self (o p : BitVec 32) (h : p >>> 16 = o >>> 16) : Stack.setLow o (p.setWidth 16) = p := by
  have : p = (p >>> 16) <<< 16 ||| (p.setWidth 16 : BitVec 16).setWidth 32 := by bits32
  unfold Stack.setLow
  conv => rhs; rw [this, h]
  bits32

/-- ESP, or SP on a 16 bit stack. -/
theorem stSp_run {e : Env} {h : St} (hc : h.r .rcx = e.ctx) (s : Ss) (p : BitVec 32) (hp : Ptr s h p)
    (hh : s.ss32 = false → p >>> 16 = h.g.gpr 4 >>> 16) :
    ∃ h', run e 0 [.stG (spSz s.ss32) esp .rbx] h = .next 0 h' ∧ h'.g = setEsp h.g p ∧ h'.r = h.r ∧ h'.loc = h.loc := by
  generalize hw : spSz s.ss32 = w
  hexec' [hc]
  refine ⟨_, rfl, ?_⟩
  hexec' []
  refine ⟨?_, trivial, trivial⟩
  unfold Ptr at hp
  rw [← hw, hp]
  unfold wrG setEsp
  congr 1
  funext i
  show (if i = 4 then _ else _) = _
  split
  · obtain ⟨ss32, flat⟩ := s
    cases ss32
    · exact setLow_self _ _ (hh rfl)
    · exact BitVec.setWidth_eq p
  · rfl

theorem pushed_high (s : Ss) (p k : BitVec 32) (h : s.ss32 = false) : bumped s p k >>> 16 = p >>> 16 := by
  unfold bumped
  rw [h]
  simp only [Bool.false_eq_true, if_false]
  unfold Stack.setLow
  generalize (BitVec.setWidth 16 p + BitVec.setWidth 16 k) = v
  bits32

theorem ldSp_run {e : Env} {h : St} (hc : h.r .rcx = e.ctx) (s : Ss) :
    ∃ h', run e 0 [.ldG (spSz s.ss32) .rbx esp] h = .next 0 h' ∧ h'.g = h.g ∧ (∀ r, r ≠ .rbx → h'.r r = h.r r) ∧ h'.loc = h.loc ∧
      Ptr s h' (h.g.gpr 4) := by
  unfold Ptr
  generalize hw : spSz s.ss32 = w
  hexec' [hc]
  refine ⟨_, rfl, ?_⟩
  hexec' []
  refine ⟨trivial, fun r hr => by rw [wr_r_ne _ _ hr], trivial, ?_⟩
  unfold rdG
  rw [if_neg (by simp [esp])]
  rfl

/-- The guest after a stack access. -/
def back (g : G) (t : Stack.St) : G := { setEsp g t.esp with mem := t.mem }

/-- gen_stack_push. -/
theorem pushCode_run {e : Env} {h : St} (hc : h.r .rcx = e.ctx) (s : Ss) (z : Sz) (v : Option (BitVec 64)) :
    match Stack.push e.ok (view e s h.g (h.g.gpr 4)) z.bytes (pushVal h z v).toNat with
    | some t => ∃ h', run e 0 (pushCode s z v) h = .next 0 h' ∧ h'.g = back h.g t ∧ h'.r .rcx = e.ctx ∧ h'.loc = h.loc
    | none => run e 0 (pushCode s z v) h = .fault h.g := by
  obtain ⟨h1, r1, g1, k1, l1, p1⟩ := ldSp_run hc s
  have c1 : h1.r .rcx = e.ctx := (k1 _ (by simp)).trans hc
  have h8 : rd h1 z .r8 = rd h z .r8 := congrArg (BitVec.setWidth z.bits) (k1 _ (by simp))
  have := pushAt_run c1 s z v _ p1
  rw [g1] at this
  have hx : pushVal h1 z v = pushVal h z v := by
    cases v with
    | some v => rfl
    | none => exact h8
  rw [hx] at this
  unfold pushCode
  rw [run_append _ r1]
  cases hq : Stack.push e.ok (view e s h.g (h.g.gpr 4)) z.bytes (pushVal h z v).toNat with
  | none =>
    rw [hq] at this
    exact run_append_fault _ this
  | some t =>
    rw [hq] at this
    obtain ⟨e2, h2, r2, g2, c2, p2, l2⟩ := this
    have hh : s.ss32 = false → t.esp >>> 16 = h2.g.gpr 4 >>> 16 := by
      intro h0
      rw [e2, g2]
      exact pushed_high s _ _ h0
    obtain ⟨h3, r3, g3, k3, l3⟩ := stSp_run c2 s t.esp p2 hh
    show ∃ h', run e 0 (pushAt s z v ++ [.stG (spSz s.ss32) esp .rbx]) h1 = .next 0 h' ∧ _
    rw [run_append _ r2]
    refine ⟨h3, r3, ?_, by rw [k3]; exact c2, l3.trans (l2.trans l1)⟩
    rw [g3, g2]; rfl

/-- One item. -/
theorem popAt_run {e : Env} {h : St} (hc : h.r .rcx = e.ctx) (s : Ss) (z : Sz) (p : BitVec 32) (hp : Ptr s h p) :
    let a := Stack.addr (view e s h.g p) (itemOff s p)
    (e.ok a z.bytes false = true → ∃ h', run e 0 (popAt s z) h = .next 0 h' ∧ h'.g = h.g ∧
      rd h' z .rax = BitVec.ofNat z.bits (load h.g.mem a z.bytes) ∧ h'.r .rcx = e.ctx ∧ Ptr s h' p ∧ h'.loc = h.loc) ∧
    (e.ok a z.bytes false = false → run e 0 (popAt s z) h = .fault h.g) := by
  intro a
  obtain ⟨h1, r1, g1, k1, l1, a1⟩ := itemAddr_run hc s p hp
  have c1 : h1.r .rcx = e.ctx := (k1 _ (by simp)).trans hc
  obtain ⟨s1, s2⟩ := ldMem_run c1 z
  rw [a1, g1] at s1 s2
  unfold popAt
  rw [run_append _ r1]
  refine ⟨fun hk => ?_, s2⟩
  obtain ⟨h2, r2, g2, v2, c2, b2, l2⟩ := s1 hk
  exact ⟨h2, r2, g2, v2, c2, ptr_same (ptr_same hp (k1 _ (by simp))) b2, l2.trans l1⟩

/-- The pointer is moved up. -/
theorem add_run {e : Env} {h : St} (s : Ss) (z : Sz) (p : BitVec 32) (hp : Ptr s h p) :
    ∃ h', run e 0 [.alu .add (spSz s.ss32) .rbx (.imm (BitVec.ofNat 64 z.bytes))] h = .next 0 h' ∧ h'.g = h.g ∧
      (∀ r, r ≠ .rbx → h'.r r = h.r r) ∧ h'.loc = h.loc ∧ Ptr s h' (bumped s p (BitVec.ofNat 32 z.bytes)) := by
  generalize hw : spSz s.ss32 = w
  hexec' []
  refine ⟨_, rfl, ?_⟩
  hexec' []
  refine ⟨trivial, fun r hr => by rw [wr_r_ne _ _ hr], trivial, ptr_bump hp ?_⟩
  rw [hw]
  hexec' []
  have hb := low_bytes z s.ss32
  rw [hw] at hb
  rw [hb]

theorem popVal_eq (e : Env) (s : Ss) (g : G) (p : BitVec 32) (z : Sz) :
    Stack.popVal e.ok (view e s g p) z.bytes =
      if e.ok (Stack.addr (view e s g p) (itemOff s p)) z.bytes false then
        some (load g.mem (Stack.addr (view e s g p) (itemOff s p)) z.bytes, bumped s p (BitVec.ofNat 32 z.bytes))
      else none := by
  obtain ⟨ss32, flat⟩ := s
  cases ss32
  · cases z <;> rfl
  · rfl

/-- gen_stack_pop<1>. -/
theorem popCode_run {e : Env} {h : St} (hc : h.r .rcx = e.ctx) (s : Ss) (z : Sz) (w : Bool) :
    match Stack.popVal e.ok (view e s h.g (h.g.gpr 4)) z.bytes with
    | some (v, p) => p = bumped s (h.g.gpr 4) (BitVec.ofNat 32 z.bytes) ∧ v < 2 ^ z.bits ∧
        ∃ h', run e 0 (popCode s z w) h = .next 0 h' ∧ h'.g = (if w then setEsp h.g p else h.g) ∧
        h'.r .rcx = e.ctx ∧ Ptr s h' p ∧ rd h' z .r8 = BitVec.ofNat z.bits v ∧ h'.loc = h.loc
    | none => run e 0 (popCode s z w) h = .fault h.g := by
  obtain ⟨h1, r1, g1, k1, l1, p1⟩ := ldSp_run hc s
  have c1 : h1.r .rcx = e.ctx := (k1 _ (by simp)).trans hc
  obtain ⟨s1, s2⟩ := popAt_run c1 s z _ p1
  rw [g1] at s1 s2
  rw [popVal_eq]
  unfold popCode
  rw [run_append _ r1]
  by_cases hk : e.ok (Stack.addr (view e s h.g (h.g.gpr 4)) (itemOff s (h.g.gpr 4))) z.bytes false = true
  · rw [if_pos hk]
    obtain ⟨h2, r2, g2, v2, c2, p2, l2⟩ := s1 hk
    refine ⟨rfl, ?_, ?_⟩
    · have hb : z.bits = 8 * z.bytes := by cases z <;> rfl
      rw [hb, Nat.pow_mul]
      exact load_lt ..
    rw [run_append _ r2]
    have h3 : ∃ h3, run e 0 [I.mov z .r8 (.reg .rax)] h2 = .next 0 h3 ∧ h3.g = h2.g ∧ h3.loc = h2.loc ∧
        (∀ r, r ≠ .r8 → h3.r r = h2.r r) ∧ rd h3 z .r8 = rd h2 z .rax := by
      hexec' []
      exact ⟨_, rfl, rfl, rfl, fun r hr => by rw [wr_r_ne _ _ hr], rd_wr_same ..⟩
    obtain ⟨h3, r3, g3, l3, k3, v3⟩ := h3
    have c3 : h3.r .rcx = e.ctx := (k3 _ (by simp)).trans c2
    obtain ⟨h4, r4, g4, k4, l4, p4⟩ := add_run (e := e) s z _ (ptr_same p2 (k3 _ (by simp)))
    have c4 : h4.r .rcx = e.ctx := (k4 _ (by simp)).trans c3
    have hg : h4.g = h.g := g4.trans (g3.trans g2)
    have v4 : rd h4 z .r8 = BitVec.ofNat z.bits (load h.g.mem (Stack.addr (view e s h.g (h.g.gpr 4)) (itemOff s (h.g.gpr 4))) z.bytes) := by
      have : rd h4 z .r8 = rd h3 z .r8 := congrArg (BitVec.setWidth z.bits) (k4 _ (by simp))
      rw [this, v3, v2]
    have hl : h4.loc = h.loc := l4.trans (l3.trans (l2.trans l1))
    have hr : run e 0 [.mov z .r8 (.reg .rax), .alu .add (spSz s.ss32) .rbx (.imm (BitVec.ofNat 64 z.bytes))] h2 = .next 0 h4 := by
      show run e 0 ([.mov z .r8 (.reg .rax)] ++ [.alu .add (spSz s.ss32) .rbx (.imm (BitVec.ofNat 64 z.bytes))]) h2 = _
      rw [run_append _ r3, r4]
    rw [run_append _ hr]
    cases w with
    | false => exact ⟨h4, rfl, hg, c4, p4, v4, hl⟩
    | true =>
      obtain ⟨h5, r5, g5, k5, l5⟩ := stSp_run c4 s _ p4 (fun h0 => by rw [hg]; exact pushed_high s _ _ h0)
      refine ⟨h5, r5, by rw [g5, hg]; rfl, by rw [k5]; exact c4, ptr_same p4 (by rw [k5]), ?_, l5.trans hl⟩
      unfold rd at v4 ⊢
      rw [k5]; exact v4
  · rw [if_neg hk]
    exact run_append_fault _ (s2 (by simpa using hk))

/-- The registers as Model/Frames.lean sees them. -/
def gp (e : Env) (s : Ss) (g : G) : Stack.Gp := ⟨fun i => if h : i < 8 ∧ i ≠ 4 ∧ i ≠ 5 then g.gpr ⟨i, h.1⟩ else 0#32, view e s g (g.gpr 4)⟩

theorem gp_get (e : Env) (s : Ss) (g : G) (i : Fin 8) : (gp e s g).get i.val = g.gpr i := by
  unfold Stack.Gp.get gp view
  by_cases h4 : i.val = 4
  · rw [if_pos h4]; exact congrArg g.gpr (Fin.ext h4.symm)
  · rw [if_neg h4]
    by_cases h5 : i.val = 5
    · rw [if_pos h5]; exact congrArg g.gpr (Fin.ext h5.symm)
    · rw [if_neg h5]; exact dif_pos ⟨i.isLt, h4, h5⟩

theorem rdG_val (g : G) {z : Sz} (hz : z = .w ∨ z = .d) (i : Fin 8) :
    (rdG g z ⟨i, false⟩).toNat = if z.bytes = 4 then (g.gpr i).toNat else (g.gpr i).toNat % 65536 := by
  unfold rdG
  rw [if_neg (by simp)]
  rcases hz with rfl | rfl
  · exact BitVec.toNat_setWidth ..
  · show (BitVec.setWidth 32 (g.gpr i)).toNat = (g.gpr i).toNat
    rw [BitVec.setWidth_eq]

theorem ldR8_run {e : Env} {h : St} (hc : h.r .rcx = e.ctx) (z : Sz) (i : Fin 8) :
    ∃ h', run e 0 [.ldG z .r8 ⟨i, false⟩] h = .next 0 h' ∧ h'.g = h.g ∧ (∀ r, r ≠ .r8 → h'.r r = h.r r) ∧ h'.loc = h.loc ∧
      rd h' z .r8 = rdG h.g z ⟨i, false⟩ := by
  hexec' [hc]
  exact ⟨_, rfl, rfl, fun r hr => by rw [wr_r_ne _ _ hr], rfl, rd_wr_same ..⟩

theorem view_upd {e : Env} {s : Ss} {g : G} {v : Stack.St} {p : BitVec 32} (h : v = view e s g p) (p' : BitVec 32) (m : Mem) :
    { v with esp := p', mem := m } = view e s { g with mem := m } p' := by
  rw [h]; rfl

/-- The loop of PUSHA. -/
theorem pushaItems_run {e : Env} (s : Ss) {z : Sz} (hz : z = .w ∨ z = .d) (g : G) : ∀ (l : List (Fin 8)) (h : St) (v : Stack.St),
    h.r .rcx = e.ctx → h.g.gpr = g.gpr → v = view e s h.g v.esp → Ptr s h v.esp → (s.ss32 = false → v.esp >>> 16 = g.gpr 4 >>> 16) →
    match Stack.pushaLoop e.ok z.bytes (gp e s g) (l.map Fin.val) v with
    | .ok t => t = view e s { h.g with mem := t.mem } t.esp ∧ (s.ss32 = false → t.esp >>> 16 = g.gpr 4 >>> 16) ∧
      ∃ h', run e 0 (pushaItems s z l) h = .next 0 h' ∧ h'.g = { h.g with mem := t.mem } ∧ h'.r .rcx = e.ctx ∧ Ptr s h' t.esp
    | .error t => t = view e s { h.g with mem := t.mem } t.esp ∧ run e 0 (pushaItems s z l) h = .fault { h.g with mem := t.mem }
  | [], h, v, hc, hg, hv, hp, hh => by
    have hm : h.g.mem = v.mem := by rw [hv]; rfl
    show v = _ ∧ _
    rw [← hm]
    exact ⟨hv, hh, h, rfl, rfl, hc, hp⟩
  | i :: l, h, v, hc, hg, hv, hp, hh => by
    obtain ⟨h1, r1, g1, k1, l1, p1⟩ := sub_run (e := e) s z v.esp hp
    have c1 : h1.r .rcx = e.ctx := (k1 _ (by simp)).trans hc
    obtain ⟨h2, r2, g2, k2, l2, a2⟩ := itemAddr_run c1 s _ p1
    have c2 : h2.r .rcx = e.ctx := (k2 _ (by simp)).trans c1
    obtain ⟨h3, r3, g3, k3, l3, v3⟩ := ldR8_run c2 z i
    have c3 : h3.r .rcx = e.ctx := (k3 _ (by simp)).trans c2
    have p3 : Ptr s h3 (pushed s v.esp z.bytes) := ptr_same (ptr_same p1 (k2 _ (by simp))) (k3 _ (by simp))
    have a3 : rd h3 .d .rdx = Stack.addr (view e s h.g v.esp) (itemOff s (pushed s v.esp z.bytes)) := by
      have : rd h3 .d .rdx = rd h2 .d .rdx := congrArg (BitVec.setWidth 32) (k3 _ (by simp))
      rw [this, a2, g1]; rfl
    have hg3 : h3.g = h.g := g3.trans (g2.trans g1)
    have hx : (rd h3 z .r8).toNat = if z.bytes = 4 then ((gp e s g).get i.val).toNat else ((gp e s g).get i.val).toNat % 65536 := by
      rw [v3, rdG_val _ hz, g2, g1, hg, gp_get]
    have hr : ∀ o, run e 0 [.stMem z] h3 = o → run e 0 ([.alu .sub (spSz s.ss32) .rbx (.imm (BitVec.ofNat 64 z.bytes))] ++ (itemAddr s ++
      [.ldG z .r8 ⟨i, false⟩, .stMem z])) h = o := by
      intro o ho
      rw [run_append _ r1, run_append _ r2]
      show run e 0 ([.ldG z .r8 ⟨i, false⟩] ++ [.stMem z]) h2 = o
      rw [run_append _ r3, ho]
    obtain ⟨s1, s2⟩ := stMem_run c3 z
    rw [a3, hx, hg3] at s1
    rw [a3, hg3] at s2
    have hpe := push_eq e s h.g v.esp z.bytes (if z.bytes = 4 then ((gp e s g).get i.val).toNat else ((gp e s g).get i.val).toNat % 65536)
    rw [← hv] at hpe s1 s2
    show match Stack.pushaLoop e.ok z.bytes (gp e s g) (i.val :: l.map Fin.val) v with | .ok t => _ | .error t => _
    unfold Stack.pushaLoop pushaItems
    rw [hpe]
    by_cases hk : e.ok (Stack.addr v (itemOff s (pushed s v.esp z.bytes))) z.bytes true = true
    · rw [if_pos hk]
      obtain ⟨h4, r4, g4, c4, b4, l4⟩ := s1 hk
      rw [run_append _ (hr _ r4)]
      have hm : h.g.mem = v.mem := by rw [hv]; rfl
      have ih := pushaItems_run s hz g l h4
        { v with esp := pushed s v.esp z.bytes
                 mem := store h.g.mem (Stack.addr v (itemOff s (pushed s v.esp z.bytes))) z.bytes
                   (if z.bytes = 4 then ((gp e s g).get i.val).toNat else ((gp e s g).get i.val).toNat % 65536) }
        c4 (by rw [g4]; exact hg) (by rw [g4]; exact view_upd hv _ _) (ptr_same p3 b4)
        (fun h0 => (pushed_high s _ _ h0).trans (hh h0))
      rw [g4] at ih
      exact ih
    · rw [if_neg hk]
      have hm : h.g.mem = v.mem := by rw [hv]; rfl
      refine ⟨?_, ?_⟩
      · rw [← hm]; exact hv
      · show _ = Out.fault { h.g with mem := v.mem }
        rw [← hm]
        exact run_append_fault _ (hr _ (s2 (by simpa using hk)))

/-- The guest with the registers and memory of Model/Frames.lean. -/
def ungp (g : G) (r : Stack.Gp) : G := ⟨fun i => r.get i.val, g.fl, r.st.mem⟩

theorem ungp_gp (e : Env) (s : Ss) (g g' : G) (hf : g'.fl = g.fl) : ungp g (gp e s g') = g' := by
  obtain ⟨gpr, fl, mem⟩ := g'
  simp only at hf
  subst hf
  unfold ungp
  congr 1
  funext i
  exact gp_get e s _ i

theorem gp_set (e : Env) (s : Ss) (g : G) {z : Sz} (hz : z = .w ∨ z = .d) (i : Fin 8) (hi : i ≠ 4) (v : Nat) :
    (gp e s g).set i.val (Stack.setSized ((gp e s g).get i.val) z.bytes v) = gp e s (wrG g z ⟨i, false⟩ (BitVec.ofNat z.bits v)) := by
  have hv : Stack.setSized (g.gpr i) z.bytes v = putG z false (g.gpr i) (BitVec.ofNat z.bits v) := by
    rcases hz with rfl | rfl <;> rfl
  rw [gp_get, hv]
  generalize hx : putG z false (g.gpr i) (BitVec.ofNat z.bits v) = x
  have h4 : (wrG g z ⟨i, false⟩ (BitVec.ofNat z.bits v)).gpr 4 = g.gpr 4 := if_neg (fun h => hi h.symm)
  have hw : ∀ j, (wrG g z ⟨i, false⟩ (BitVec.ofNat z.bits v)).gpr j = if j = i then x else g.gpr j := by
    intro j; unfold wrG; simp only [hx]
  have hm : (wrG g z ⟨i, false⟩ (BitVec.ofNat z.bits v)).mem = g.mem := rfl
  generalize wrG g z ⟨i, false⟩ (BitVec.ofNat z.bits v) = g' at h4 hw hm
  unfold Stack.Gp.set gp view
  by_cases h5 : i.val = 5
  · obtain rfl : i = 5 := Fin.ext h5
    rw [if_pos (show ((5 : Fin 8).val = 5) from rfl), h4, hw, hm, if_pos rfl]
    congr 1
    funext j
    by_cases hj : j < 8 ∧ j ≠ 4 ∧ j ≠ 5
    · rw [dif_pos hj, hw, if_neg (fun h => hj.2.2 (congrArg Fin.val h))]
      exact dif_pos hj
    · rw [dif_neg hj]
      exact dif_neg hj
  · rw [if_neg h5, h4, hw, hm, if_neg (fun h => h5 (congrArg Fin.val h).symm)]
    congr 1
    funext j
    by_cases hj : j < 8 ∧ j ≠ 4 ∧ j ≠ 5
    · rw [dif_pos hj, hw]
      by_cases hji : j = i.val
      · rw [if_pos hji, if_pos (Fin.ext hji)]
      · rw [if_neg hji, if_neg (fun h => hji (congrArg Fin.val h))]
        simp only
        rw [dif_pos hj]
    · rw [dif_neg hj]
      have : j ≠ i.val := fun h => hj ⟨h ▸ i.isLt, fun h' => hi (Fin.ext (h ▸ h')), h ▸ h5⟩
      rw [if_neg this]
      simp only
      rw [dif_neg hj]

theorem stRax_run {e : Env} {h : St} (hc : h.r .rcx = e.ctx) (z : Sz) (i : Fin 8) :
    run e 0 [.stG z ⟨i, false⟩ .rax] h = .next 0 (h.setG (wrG h.g z ⟨i, false⟩ (rd h z .rax))) := by
  hexec' [hc]

theorem bump_eq (e : Env) (s : Ss) (g : G) (p : BitVec 32) (z : Sz) :
    Stack.bump (gp e s g).st p z.bytes = bumped s p (BitVec.ofNat 32 z.bytes) := by
  obtain ⟨ss32, flat⟩ := s
  cases ss32
  · cases z <;> rfl
  · rfl

/-- The loops of POPA. -/
theorem popaItems_run {e : Env} (s : Ss) {z : Sz} (hz : z = .w ∨ z = .d) : ∀ (l : List (Fin 8)) (h : St) (p : BitVec 32),
    h.r .rcx = e.ctx → Ptr s h p → (s.ss32 = false → p >>> 16 = h.g.gpr 4 >>> 16) →
    match Stack.popaLoop e.ok z.bytes (l.map Fin.val) p (gp e s h.g) with
    | .ok (q, r) => r = gp e s (ungp h.g r) ∧ (s.ss32 = false → q >>> 16 = h.g.gpr 4 >>> 16) ∧ r.st.esp = h.g.gpr 4 ∧
      ∃ h', run e 0 (popaItems s z l) h = .next 0 h' ∧ h'.g = ungp h.g r ∧ h'.r .rcx = e.ctx ∧ Ptr s h' q
    | .error r => r = gp e s (ungp h.g r) ∧ run e 0 (popaItems s z l) h = .fault (ungp h.g r)
  | [], h, p, hc, hp, hh => by
    show gp e s h.g = gp e s (ungp h.g (gp e s h.g)) ∧ _
    rw [ungp_gp e s h.g h.g rfl]
    exact ⟨rfl, hh, rfl, h, rfl, rfl, hc, hp⟩
  | i :: l, h, p, hc, hp, hh => by
    show match Stack.popaLoop e.ok z.bytes (i.val :: l.map Fin.val) p (gp e s h.g) with | .ok (q, r) => _ | .error r => _
    unfold Stack.popaLoop popaItems
    rw [bump_eq]
    by_cases h4 : i = 4
    · subst h4
      rw [if_pos (show ((4 : Fin 8).val = 4) from rfl), if_pos rfl]
      obtain ⟨h1, r1, g1, k1, l1, p1⟩ := add_run (e := e) s z p hp
      have c1 : h1.r .rcx = e.ctx := (k1 _ (by simp)).trans hc
      rw [List.nil_append, run_append _ r1]
      have ih := popaItems_run s hz l h1 _ c1 p1 (fun h0 => by rw [g1]; exact (pushed_high s _ _ h0).trans (hh h0))
      rw [g1] at ih
      exact ih
    · rw [if_neg (show ¬ i.val = 4 from fun h => h4 (Fin.ext h)), if_neg h4]
      obtain ⟨s1, s2⟩ := popAt_run hc s z p hp
      have ha : Stack.addr (gp e s h.g).st (if (gp e s h.g).st.ss32 then p else (p.setWidth 16 : BitVec 16).setWidth 32) =
        Stack.addr (view e s h.g p) (itemOff s p) := rfl
      simp only
      rw [ha]
      generalize Stack.addr (view e s h.g p) (itemOff s p) = a at s1 s2
      have hmem : (gp e s h.g).st.mem = h.g.mem := rfl
      rw [hmem]
      by_cases hk : e.ok a z.bytes false = true
      · rw [if_pos hk]
        obtain ⟨h1, r1, g1, v1, c1, p1, l1⟩ := s1 hk
        have r2 := stRax_run c1 z i
        rw [v1, g1] at r2
        obtain ⟨h3, r3, g3, k3, l3, p3⟩ := add_run (e := e) (h := h1.setG (wrG h.g z ⟨i, false⟩ (BitVec.ofNat z.bits (load h.g.mem a z.bytes)))) s z p p1
        have c3 : h3.r .rcx = e.ctx := (k3 _ (by simp)).trans c1
        rw [List.append_assoc, List.append_assoc, run_append _ r1, run_append _ r2, run_append _ r3]
        rw [gp_set e s h.g hz i h4]
        have h4' : h3.g.gpr 4 = h.g.gpr 4 := by rw [g3]; exact if_neg (fun h => h4 h.symm)
        have ih := popaItems_run s hz l h3 _ c3 p3 (fun h0 => by rw [h4']; exact (pushed_high s _ _ h0).trans (hh h0))
        rw [h4'] at ih
        have hg3 : h3.g = wrG h.g z ⟨i, false⟩ (BitVec.ofNat z.bits (load h.g.mem a z.bytes)) := g3
        have hf : h3.g.fl = h.g.fl := by rw [hg3]; rfl
        have hu : ∀ r, ungp h3.g r = ungp h.g r := fun r => by unfold ungp; rw [hf]
        simp only [hu] at ih
        rw [hg3] at ih
        exact ih
      · rw [if_neg hk]
        have := s2 (by simpa using hk)
        refine ⟨?_, ?_⟩
        · rw [ungp_gp e s h.g h.g rfl]
        · show _ = Out.fault (ungp h.g (gp e s h.g))
          rw [ungp_gp e s h.g h.g rfl, List.append_assoc, List.append_assoc]
          exact run_append_fault _ this

end Verif.Emit
