import Verif.Model.Near
import Verif.Props.Stack
import Verif.Props.FlagInstr
/-
C81: jumps, loops, calls and returns.
-/
namespace Verif.Near
open Guest Stack

/-! ### Specification -/

/-- The address of the following instruction. -/
def archNext (eip : BitVec 32) (len : Nat) : Nat := (eip.toNat + len) % 2 ^ 32

/-- The target of a relative transfer: EIP of the next instruction plus the displacement, in the
operand size. -/
def archTarget (eip : BitVec 32) (len : Nat) (rel : Int) (size32 : Bool) : Nat :=
  (((eip.toNat : Int) + len + rel) % (if size32 then 2 ^ 32 else 2 ^ 16)).toNat

/-- The state after a jump to `n`: only EIP has changed. -/
def goto (s : St) (n : Nat) : St := { s with eip := BitVec.ofNat 32 n }

/-- CX or ECX, by the address size. -/
def count (s : St) (addr32 : Bool) : Nat := if addr32 then s.ecx.toNat else s.ecx.toNat % 65536

/-- The number of values the counter has. -/
def countMod (addr32 : Bool) : Nat := if addr32 then 2 ^ 32 else 2 ^ 16

/-- How often a loop runs: the counter, where zero means the whole range. -/
def passes (s : St) (addr32 : Bool) : Nat :=
  if count s addr32 = 0 then countMod addr32 else count s addr32

/-- What the loop instructions require of ZF to go on. -/
def loopCond (s : St) : LoopKind → Bool
  | .loop => true
  | .loope => (Flags.flags s.fl).zf
  | .loopne => !(Flags.flags s.fl).zf

/-- The stack offset `k` bytes below the top. -/
def below (t : Stack.St) (k : Nat) : Nat := (off t + modulus t - k) % modulus t

/-! ### Lemmas -/

theorem mask16 (x : BitVec 32) : (x &&& 0xFFFF#32).toNat = x.toNat % 65536 := by
  rw [BitVec.toNat_and, show (0xFFFF#32 : BitVec 32).toNat = 2 ^ 16 - 1 from rfl,
    Nat.and_two_pow_sub_one_eq_mod]

theorem next_eq (s : St) (len : Nat) : next s len = BitVec.ofNat 32 (archNext s.eip len) := by
  apply BitVec.eq_of_toNat_eq
  unfold next archNext
  rw [BitVec.toNat_add, BitVec.toNat_ofNat, BitVec.toNat_ofNat]
  omega

theorem target_eq (s : St) (len : Nat) (rel : Int) (z : Bool) :
    target s len rel z = BitVec.ofNat 32 (archTarget s.eip len rel z) := by
  apply BitVec.eq_of_toNat_eq
  have e : (next s len + BitVec.ofInt 32 rel).toNat =
      (((s.eip.toNat : Int) + len + rel) % 2 ^ 32).toNat := by
    rw [next_eq, BitVec.toNat_add, BitVec.toNat_ofNat, BitVec.toNat_ofInt]
    unfold archNext
    omega
  unfold target archTarget
  cases z with
  | true => simp only [if_true]; rw [e, BitVec.toNat_ofNat]; omega
  | false =>
    simp only [Bool.false_eq_true, if_false]
    rw [mask16, e, BitVec.toNat_ofNat]; omega

theorem opBytes_le (z : Bool) : opBytes z ≤ 4 := by cases z <;> decide
theorem modulus_pos (t : Stack.St) : 65536 ≤ modulus t ∧ modulus t ≤ 2 ^ 32 := by
  unfold modulus; split <;> omega
theorem off_lt (t : Stack.St) : off t < modulus t := by
  unfold off modulus; split
  · exact t.esp.isLt
  · omega

theorem push_addr (ok : Ok) (t : Stack.St) (hf : Flat t) (k v : Nat) (hk : k ≤ 4) :
    push ok t k v = none ↔ ok (lin t (below t k)) k true = false := by
  have he := t.esp.isLt
  unfold push below
  cases h32 : t.ss32 with
  | true =>
    have e : (t.esp - BitVec.ofNat 32 k).toNat = (off t + modulus t - k) % modulus t := by
      simp only [off, modulus, h32, if_true]
      rw [BitVec.toNat_sub, BitVec.toNat_ofNat]; omega
    simp only [if_true, addr_lin hf, e]
    split <;> simp_all
  | false =>
    have e : ((t.esp.setWidth 16 - BitVec.ofNat 16 k : BitVec 16).setWidth 32 : BitVec 32).toNat =
        (off t + modulus t - k) % modulus t := by
      simp only [off, modulus, h32, Bool.false_eq_true, if_false]
      rw [BitVec.toNat_setWidth, BitVec.toNat_sub, BitVec.toNat_setWidth, BitVec.toNat_ofNat]; omega
    simp only [Bool.false_eq_true, if_false, addr_lin hf, e]
    split <;> simp_all

theorem pop_addr (ok : Ok) (t : Stack.St) (hf : Flat t) (k : Nat) :
    pop ok t k = none ↔ ok (lin t (off t)) k false = false := by
  unfold pop popVal
  cases h32 : t.ss32 with
  | true =>
    have ho : off t = t.esp.toNat := by simp [off, h32]
    simp only [if_true, addr_lin hf, ← ho]
    split <;> simp_all
  | false =>
    have ho : ((t.esp.setWidth 16 : BitVec 16).setWidth 32 : BitVec 32).toNat = off t := by
      rw [BitVec.toNat_setWidth, BitVec.toNat_setWidth]
      simp only [off, h32, Bool.false_eq_true, if_false]; omega
    simp only [Bool.false_eq_true, if_false, addr_lin hf, ho]
    split <;> simp_all

theorem addEsp_spec (t : Stack.St) (imm : Nat) :
    off (addEsp t imm) = (off t + imm) % modulus t ∧ (addEsp t imm).mem = t.mem ∧ SameSeg t (addEsp t imm) := by
  have he := t.esp.isLt
  unfold addEsp
  cases h32 : t.ss32 with
  | true =>
    refine ⟨?_, rfl, rfl, by simpa using h32.symm, rfl, rfl, fun h => ?_⟩
    · simp only [off, modulus, h32, if_true, BitVec.toNat_add, BitVec.toNat_ofNat]; omega
    · rw [h32] at h; cases h
  | false =>
    have e : (t.esp.setWidth 16 + BitVec.ofNat 16 imm : BitVec 16).toNat = (t.esp.toNat + imm) % 65536 := by
      rw [BitVec.toNat_add, BitVec.toNat_setWidth, BitVec.toNat_ofNat]; omega
    refine ⟨?_, rfl, rfl, by simpa using h32.symm, rfl, rfl, fun _ => ?_⟩
    · simp only [off, modulus, h32, Bool.false_eq_true, if_false]
      rw [setLow_toNat, e]; omega
    · show (setLow _ _).toNat / 65536 = _
      rw [setLow_toNat, e]; omega

/-! ### Jumps -/

/-- C81, Jcc: control goes to the displacement target when the architectural condition holds of the
flags a reader of EFLAGS sees, else to the next instruction; nothing else changes. -/
theorem C81_jcc (s : St) (hc : Flags.Clean s.fl) (c : Flags.CC) (len : Nat) (rel : Int) (z : Bool) :
    jcc s c len rel z = goto s
      (if c.spec.holds (Flags.flags s.fl) then archTarget s.eip len rel z else archNext s.eip len) := by
  unfold jcc goto
  rw [Flags.C58_condition s.fl hc, target_eq, next_eq]
  cases c.spec.holds (Flags.flags s.fl) <;> rfl

theorem low16 (x : BitVec 32) : ((x.setWidth 16 : BitVec 16).setWidth 32 : BitVec 32).toNat = x.toNat % 65536 := by
  rw [BitVec.toNat_setWidth, BitVec.toNat_setWidth]; omega

/-- C81, JCXZ and JECXZ: taken exactly when CX (ECX with 32 bit addresses) is zero. -/
theorem C81_jcxz (s : St) (len : Nat) (rel : Int) (z a : Bool) :
    jcxz s len rel z a = goto s
      (if count s a = 0 then archTarget s.eip len rel z else archNext s.eip len) := by
  have hc : ((if a then s.ecx else (s.ecx.setWidth 16 : BitVec 16).setWidth 32) = 0#32) ↔ count s a = 0 := by
    rw [← BitVec.toNat_inj]
    unfold count
    cases a
    · simp only [Bool.false_eq_true, if_false]; rw [low16]; rfl
    · simp only [if_true]; rfl
  unfold jcxz goto
  dsimp only
  rw [target_eq, next_eq]
  by_cases h : count s a = 0
  · rw [if_pos (hc.2 h), if_pos h]
  · rw [if_neg (fun x => h (hc.1 x)), if_neg h]

/-- C81, JMP rel. -/
theorem C81_jmp (s : St) (len : Nat) (rel : Int) (z : Bool) :
    jmpRel s len rel z = goto s (archTarget s.eip len rel z) := by
  unfold jmpRel goto; rw [target_eq]

/-! ### Loops -/

theorem zf_eq (s : Flags.St) (hc : Flags.Clean s) : (Flags.ldZf s == 0#32) = (Flags.flags s).zf :=
  Flags.C58_condition s hc .z

theorem loopCount_spec (s : St) (a : Bool) :
    ((loopCount s a).1 = 0#32 ↔ (count s a + countMod a - 1) % countMod a = 0) ∧
    (if a then (loopCount s a).2.toNat else (loopCount s a).2.toNat % 65536) =
      (count s a + countMod a - 1) % countMod a ∧
    (a = false → (loopCount s a).2.toNat / 65536 = s.ecx.toNat / 65536) := by
  have he := s.ecx.isLt
  cases a with
  | true =>
    have e : (s.ecx - 1#32).toNat = (s.ecx.toNat + 2 ^ 32 - 1) % 2 ^ 32 := by
      rw [BitVec.toNat_sub]; simp only [BitVec.toNat_ofNat]; omega
    refine ⟨?_, ?_, fun h => by cases h⟩
    · simp only [loopCount, count, countMod, if_true]
      rw [← BitVec.toNat_inj, e]; rfl
    · simp only [loopCount, count, countMod, if_true]
      exact e
  | false =>
    have e : ((s.ecx.setWidth 16 : BitVec 16).setWidth 32 - 1#32 : BitVec 32).toNat =
        (s.ecx.toNat % 65536 + 2 ^ 32 - 1) % 2 ^ 32 := by
      rw [BitVec.toNat_sub, low16]; simp only [BitVec.toNat_ofNat]; omega
    refine ⟨?_, ?_, fun _ => ?_⟩
    · simp only [loopCount, count, countMod, Bool.false_eq_true, if_false]
      rw [← BitVec.toNat_inj, e]
      show _ = 0 ↔ _
      omega
    · simp only [loopCount, count, countMod, Bool.false_eq_true, if_false]
      rw [setLow_toNat, BitVec.toNat_setWidth, e]; omega
    · simp only [loopCount, Bool.false_eq_true, if_false]
      rw [setLow_toNat, BitVec.toNat_setWidth, e]; omega

/-- C81, LOOP, LOOPE, LOOPNE: the counter goes down by one in its width (a 16 bit counter leaves the
upper half of ECX alone); control goes to the target exactly when the counter is now not zero and ZF
is as the instruction requires; flags, stack and everything else stay. -/
theorem C81_loop (s : St) (hc : Flags.Clean s.fl) (kd : LoopKind) (len : Nat) (rel : Int) (z a : Bool) :
    ∃ c : BitVec 32, loop s kd len rel z a = goto { s with ecx := c }
        (if count { s with ecx := c } a ≠ 0 ∧ loopCond s kd = true then archTarget s.eip len rel z
         else archNext s.eip len) ∧
      count { s with ecx := c } a = (count s a + countMod a - 1) % countMod a ∧
      (a = false → c.toNat / 65536 = s.ecx.toNat / 65536) := by
  obtain ⟨h1, h2, h3⟩ := loopCount_spec s a
  have hcount : count { s with ecx := (loopCount s a).2 } a = (count s a + countMod a - 1) % countMod a := h2
  refine ⟨(loopCount s a).2, ?_, hcount, h3⟩
  rw [hcount]
  unfold loop goto
  dsimp only
  rw [target_eq, next_eq]
  have hz : ((loopCount s a).1 == 0#32) = decide ((count s a + countMod a - 1) % countMod a = 0) := by
    by_cases h : (count s a + countMod a - 1) % countMod a = 0
    · rw [h1.2 h, decide_eq_true h]; rfl
    · rw [decide_eq_false h]
      exact beq_eq_false_iff_ne.2 (fun x => h (h1.1 x))
  rw [hz]
  have hb : (Flags.ldZf s.fl != 0#32) = !(Flags.flags s.fl).zf := by
    rw [← zf_eq s.fl hc]; rfl
  generalize (count s a + countMod a - 1) % countMod a = n
  have fin : ∀ x y : Bool, y = !x → ∀ T N : Nat,
      (if (decide (n = 0) || x) = true then BitVec.ofNat 32 N else BitVec.ofNat 32 T) =
        BitVec.ofNat 32 (if n ≠ 0 ∧ y = true then T else N) := by
    intro x y hxy T N
    subst hxy
    cases x <;> by_cases h : n = 0 <;> simp [h]
  cases kd with
  | loop =>
    exact congrArg (fun e => { s with ecx := (loopCount s a).2, eip := e }) (fin false true rfl _ _)
  | loope =>
    exact congrArg (fun e => { s with ecx := (loopCount s a).2, eip := e })
      (fin (Flags.ldZf s.fl != 0#32) (Flags.flags s.fl).zf (by rw [hb, Bool.not_not]) _ _)
  | loopne =>
    exact congrArg (fun e => { s with ecx := (loopCount s a).2, eip := e })
      (fin (Flags.ldZf s.fl == 0#32) (!(Flags.flags s.fl).zf) (by rw [zf_eq s.fl hc]) _ _)

/-- The states at the end of each pass of a loop: the body runs up to the loop instruction, which is
then executed. -/
def iter (body : St → St) (kd : LoopKind) (len : Nat) (rel : Int) (z a : Bool) : Nat → St → St
  | 0, s => s
  | i + 1, s => loop (body (iter body kd len rel z a i s)) kd len rel z a

theorem step_mod (c M i : Nat) (hM : 0 < M) :
    (((c + M * (i + 1) - i) % M) + M - 1) % M = (c + M * (i + 1 + 1) - (i + 1)) % M := by
  have h1 : i ≤ M * (i + 1) := by
    calc i ≤ 1 * (i + 1) := by omega
      _ ≤ M * (i + 1) := Nat.mul_le_mul_right _ hM
  have e : c + M * (i + 1 + 1) - (i + 1) = (c + M * (i + 1) - i) + (M - 1) := by
    rw [Nat.mul_add M (i + 1) 1]; omega
  rw [e, show (c + M * (i + 1) - i) % M + M - 1 = (c + M * (i + 1) - i) % M + (M - 1) by omega,
    Nat.mod_add_mod]

/-- The hypotheses on the body of a loop: it comes back to the loop instruction at `at_` without
touching the counter, whatever else it does, and keeps an invariant `P`. -/
structure Body (P : St → Prop) (body : St → St) (at_ : BitVec 32) (kd : LoopKind) (len : Nat) (rel : Int)
    (z a : Bool) : Prop where
  eip : ∀ s, P s → (body s).eip = at_
  cnt : ∀ s, P s → count (body s) a = count s a
  clean : ∀ s, P s → Flags.Clean (body s).fl
  inv : ∀ s, P s → P (loop (body s) kd len rel z a)

theorem iter_inv {P body at_ kd len rel z a} (hb : Body P body at_ kd len rel z a) (s : St) (hs : P s) (i : Nat) :
    P (iter body kd len rel z a i s) := by
  induction i with
  | zero => exact hs
  | succ i ih => exact hb.inv _ ih

theorem iter_count {P body at_ kd len rel z a} (hb : Body P body at_ kd len rel z a) (s : St) (hs : P s) (i : Nat) :
    count (iter body kd len rel z a i s) a = (count s a + countMod a * (i + 1) - i) % countMod a := by
  have hM : 0 < countMod a := by unfold countMod; split <;> omega
  have hlt : count s a < countMod a := by
    unfold count countMod
    split
    · exact s.ecx.isLt
    · omega
  induction i with
  | zero =>
    rw [Nat.sub_zero, Nat.zero_add, Nat.mul_one, Nat.add_mod_right, Nat.mod_eq_of_lt hlt]; rfl
  | succ i ih =>
    have hp := iter_inv hb s hs i
    obtain ⟨c, h1, h2, _⟩ := C81_loop (body (iter body kd len rel z a i s)) (hb.clean _ hp) kd len rel z a
    show count (loop (body (iter body kd len rel z a i s)) kd len rel z a) a = _
    rw [h1]
    have : ∀ (t : St) (n : Nat), count (goto t n) a = count t a := fun _ _ => rfl
    rw [this, h2, hb.cnt _ hp, ih]
    exact step_mod _ _ _ hM

/-- C81: a loop whose body leaves the counter alone runs exactly as many times as the counter says,
zero meaning 65536 (or 2^32) times, unless ZF ends it earlier: after pass `i + 1` control is back at
the head of the loop if passes remain and ZF is as LOOPE or LOOPNE require, else at the instruction
after the loop. -/
theorem C81_loop_count {P body at_ kd len rel z a} (hb : Body P body at_ kd len rel z a) (s : St) (hs : P s)
    (i : Nat) (hi : i < passes s a) :
    (iter body kd len rel z a (i + 1) s).eip = BitVec.ofNat 32
      (if i + 1 < passes s a ∧ loopCond (body (iter body kd len rel z a i s)) kd = true
       then archTarget at_ len rel z else archNext at_ len) := by
  have hp := iter_inv hb s hs i
  obtain ⟨c, h1, h2, _⟩ := C81_loop (body (iter body kd len rel z a i s)) (hb.clean _ hp) kd len rel z a
  have hcnt := iter_count hb s hs (i + 1)
  have hM : 65536 ≤ countMod a := by unfold countMod; split <;> omega
  have hlt : count s a < countMod a := by
    unfold count countMod
    split
    · exact s.ecx.isLt
    · omega
  have hz : count { body (iter body kd len rel z a i s) with ecx := c } a ≠ 0 ↔ i + 1 < passes s a := by
    have e : count { body (iter body kd len rel z a i s) with ecx := c } a =
        (count s a + countMod a * (i + 1 + 1) - (i + 1)) % countMod a := by
      rw [← hcnt]
      show _ = count (loop (body (iter body kd len rel z a i s)) kd len rel z a) a
      rw [h1]; rfl
    rw [e]
    unfold passes at hi ⊢
    generalize hM' : countMod a = M at *
    generalize count s a = n at *
    have hle : i + 1 ≤ M := by split at hi <;> omega
    have h2 : M * (i + 1 + 1) = M * (i + 1) + M := by rw [Nat.mul_add, Nat.mul_one]
    have e2 : n + M * (i + 1 + 1) - (i + 1) = (n + M - (i + 1)) + M * (i + 1) := by omega
    rw [e2, Nat.add_mul_mod_self_left]
    by_cases hn : n = 0
    · rw [if_pos hn] at hi ⊢
      subst hn
      by_cases hl : i + 1 = M
      · rw [hl]; simp
      · rw [Nat.mod_eq_of_lt (by omega)]; omega
    · rw [if_neg hn] at hi ⊢
      rw [show n + M - (i + 1) = (n - (i + 1)) + M by omega, Nat.add_mod_right, Nat.mod_eq_of_lt (by omega)]
      omega
  show (loop (body (iter body kd len rel z a i s)) kd len rel z a).eip = _
  rw [h1]
  have e1 : archTarget (body (iter body kd len rel z a i s)).eip len rel z = archTarget at_ len rel z := by
    rw [hb.eip _ hp]
  have e2 : archNext (body (iter body kd len rel z a i s)).eip len = archNext at_ len := by
    rw [hb.eip _ hp]
  rw [e1, e2]
  show BitVec.ofNat 32 (if _ then _ else _) = _
  simp only [hz]

/-! ### Calls and returns -/

/-- C81, CALL rel: it completes exactly when the return slot can be written; then the slot holds the
address of the next instruction in the operand size, the stack pointer is at the slot, and control
is at the target.  Otherwise nothing has changed. -/
theorem C81_call (ok : Ok) (s : St) (hf : Flat s.stk) (len : Nat) (rel : Int) (z : Bool) :
    (ok (lin s.stk (below s.stk (opBytes z))) (opBytes z) true = false → callRel ok s len rel z = .fault s) ∧
    (ok (lin s.stk (below s.stk (opBytes z))) (opBytes z) true = true →
      ∃ t, callRel ok s len rel z =
          .done (goto { s with stk := t } (archTarget s.eip len rel z)) ∧
        off t = below s.stk (opBytes z) ∧
        t.mem = store s.stk.mem (lin s.stk (off t)) (opBytes z) (archNext s.eip len) ∧ SameSeg s.stk t) := by
  have hn : (next s len).toNat = archNext s.eip len := by
    rw [next_eq, BitVec.toNat_ofNat]; exact Nat.mod_eq_of_lt (Nat.mod_lt _ (by omega))
  constructor
  · intro h
    unfold callRel
    rw [(push_addr ok s.stk hf _ _ (opBytes_le z)).2 h]
  · intro h
    unfold callRel
    rw [hn]
    cases hp : push ok s.stk (opBytes z) (archNext s.eip len) with
    | none => rw [(push_addr ok s.stk hf _ _ (opBytes_le z)).1 hp] at h; cases h
    | some t =>
      obtain ⟨h1, h2, h3, _⟩ := C66_push ok hf (opBytes_le z) hp
      exact ⟨t, by rw [target_eq]; rfl, h1, h2, h3⟩

/-- C81, CALL r/m: a call to the operand's value, read before the push; whichever access faults,
nothing has changed. -/
theorem C81_call_rm (ok : Ok) (s : St) (hf : Flat s.stk) (len : Nat) (rm : Rm) (z : Bool) :
    match callRm ok s len rm z with
    | .fault t => t = s
    | .done u => ∃ t, off t = below s.stk (opBytes z) ∧
        t.mem = store s.stk.mem (lin s.stk (off t)) (opBytes z) (archNext s.eip len) ∧ SameSeg s.stk t ∧
        u = goto { s with stk := t } (match rm with
              | .reg v => v.toNat % 256 ^ opBytes z
              | .mem a => load s.stk.mem a (opBytes z)) := by
  have hn : (next s len).toNat = archNext s.eip len := by
    rw [next_eq, BitVec.toNat_ofNat]; exact Nat.mod_eq_of_lt (Nat.mod_lt _ (by omega))
  unfold callRm
  cases hl : loadRm ok s rm z with
  | none => rfl
  | some v =>
    simp only
    rw [hn]
    cases hp : push ok s.stk (opBytes z) (archNext s.eip len) with
    | none => rfl
    | some t =>
      obtain ⟨h1, h2, h3, _⟩ := C66_push ok hf (opBytes_le z) hp
      refine ⟨t, h1, h2, h3, ?_⟩
      cases rm with
      | reg w =>
        unfold loadRm at hl
        obtain rfl := Option.some.inj hl
        have : (if z then w else w &&& 0xFFFF#32) = BitVec.ofNat 32 (w.toNat % 256 ^ opBytes z) := by
          apply BitVec.eq_of_toNat_eq
          have := w.isLt
          rw [BitVec.toNat_ofNat]
          cases z
          · simp only [Bool.false_eq_true, if_false, opBytes, mask16]; omega
          · simp only [if_true, opBytes]; omega
        rw [this]; rfl
      | mem b =>
        unfold loadRm at hl
        simp only at hl
        split at hl
        · obtain rfl := Option.some.inj hl; rfl
        · cases hl

/-- C81, JMP r/m. -/
theorem C81_jmp_rm (ok : Ok) (s : St) (rm : Rm) (z : Bool) :
    match jmpRm ok s rm z with
    | .fault t => t = s
    | .done u => u = goto s (match rm with
              | .reg v => v.toNat % 256 ^ opBytes z
              | .mem a => load s.stk.mem a (opBytes z)) := by
  unfold jmpRm
  cases hl : loadRm ok s rm z with
  | none => rfl
  | some v =>
    cases rm with
    | reg w =>
      unfold loadRm at hl
      obtain rfl := Option.some.inj hl
      have : (if z then w else w &&& 0xFFFF#32) = BitVec.ofNat 32 (w.toNat % 256 ^ opBytes z) := by
        apply BitVec.eq_of_toNat_eq
        have := w.isLt
        rw [BitVec.toNat_ofNat]
        cases z
        · simp only [Bool.false_eq_true, if_false, opBytes, mask16]; omega
        · simp only [if_true, opBytes]; omega
      simp only [this]; rfl
    | mem b =>
      unfold loadRm at hl
      simp only at hl
      split at hl
      · obtain rfl := Option.some.inj hl; rfl
      · cases hl

/-- C81, RET: it completes exactly when the top of the stack can be read; control goes to the value
there, the stack pointer moves over it and over the immediate, memory and everything else stay. -/
theorem C81_ret (ok : Ok) (s : St) (hf : Flat s.stk) (imm : Nat) (z : Bool) :
    (ok (lin s.stk (off s.stk)) (opBytes z) false = false → ret ok s imm z = .fault s) ∧
    (ok (lin s.stk (off s.stk)) (opBytes z) false = true →
      ∃ t, ret ok s imm z =
          .done (goto { s with stk := t } (load s.stk.mem (lin s.stk (off s.stk)) (opBytes z))) ∧
        off t = (off s.stk + opBytes z + imm) % modulus s.stk ∧ t.mem = s.stk.mem ∧ SameSeg s.stk t) := by
  constructor
  · intro h
    unfold ret
    rw [(pop_addr ok s.stk hf _).2 h]
  · intro h
    obtain ⟨t, h1, h2, h3, h4⟩ := C66_pop ok hf (opBytes_le z) h
    obtain ⟨a1, a2, a3⟩ := addEsp_spec t imm
    refine ⟨addEsp t imm, ?_, ?_, a2.trans h3, h4.trans a3⟩
    · unfold ret; rw [h1]; rfl
    · rw [a1, h4.modulus, h2, Nat.mod_add_mod]

/-- C81: the RET of a called procedure comes back to the instruction after the CALL with the stack
pointer as it was before the call, plus the immediate, whatever the procedure did, provided it ends
with the stack pointer where it started and has not overwritten its return slot.  With 16 bit
operands the return address is the low half. -/
theorem C81_call_ret (ok : Ok) (hrw : ∀ a k, ok a k true = true → ok a k false = true)
    (s c u : St) (hf : Flat s.stk) (len : Nat) (rel : Int) (z : Bool)
    (hc : callRel ok s len rel z = .done c)
    (hseg : SameSeg c.stk u.stk) (ho : off u.stk = off c.stk)
    (hslot : ∀ i < opBytes z, u.stk.mem (lin c.stk (off c.stk) + BitVec.ofNat 32 i) =
      c.stk.mem (lin c.stk (off c.stk) + BitVec.ofNat 32 i)) (imm : Nat) :
    ∃ t, ret ok u imm z = .done (goto { u with stk := t } (archNext s.eip len % 256 ^ opBytes z)) ∧
      off t = (off s.stk + imm) % modulus s.stk ∧ t.mem = u.stk.mem ∧ SameSeg s.stk t := by
  have hok : ok (lin s.stk (below s.stk (opBytes z))) (opBytes z) true = true := by
    cases h : ok (lin s.stk (below s.stk (opBytes z))) (opBytes z) true with
    | true => rfl
    | false => rw [(C81_call ok s hf len rel z).1 h] at hc; cases hc
  obtain ⟨t, h1, h2, h3, h4⟩ := (C81_call ok s hf len rel z).2 hok
  rw [h1] at hc
  injection hc with hc
  have hct : c.stk = t := by rw [← hc]; rfl
  rw [hct] at hseg ho hslot
  have hlin : ∀ o, lin u.stk o = lin s.stk o := fun o => by unfold lin; rw [hseg.1, h4.1]
  have hlt : ∀ o, lin t o = lin s.stk o := fun o => by unfold lin; rw [h4.1]
  have hfu : Flat u.stk := hseg.flat (h4.flat hf)
  obtain ⟨r, r1, r2, r3, r4⟩ := (C81_ret ok u hfu imm z).2 (by rw [hlin, ho, h2]; exact hrw _ _ hok)
  have hval : load u.stk.mem (lin u.stk (off u.stk)) (opBytes z) = archNext s.eip len % 256 ^ opBytes z := by
    rw [← load_store s.stk.mem (lin s.stk (off t)) (opBytes z) (archNext s.eip len) (opBytes z) (Nat.le_refl _)
      (by have := opBytes_le z; omega), ← h3, hlin, ho]
    apply load_congr
    intro i hi
    rw [← hlt]
    exact hslot i hi
  refine ⟨r, by rw [r1, hval], ?_, r3, h4.trans (hseg.trans r4)⟩
  rw [r2, hseg.modulus, h4.modulus, ho, h2]
  have hM := modulus_pos s.stk
  have hlt := off_lt s.stk
  have hk := opBytes_le z
  unfold below
  generalize modulus s.stk = M at *
  generalize off s.stk = o at *
  generalize opBytes z = k at *
  rw [Nat.add_assoc, Nat.mod_add_mod, show o + M - k + (k + imm) = (o + imm) + M by omega, Nat.add_mod_right]

theorem pushAll_off (ok : Ok) (l : List (Nat × Nat)) (hl : ∀ p ∈ l, p.1 ≤ 4) (s s' : Stack.St) (hf : Flat s)
    (h : pushAll ok s l = some s') : (off s' + total l) % modulus s = off s := by
  induction l generalizing s with
  | nil =>
    rw [pushAll] at h; obtain rfl := Option.some.inj h
    exact Nat.mod_eq_of_lt (off_lt _)
  | cons p l ih =>
    obtain ⟨k, v⟩ := p
    rw [pushAll] at h
    cases hp : push ok s k v with
    | none => rw [hp] at h; cases h
    | some s1 =>
      rw [hp] at h
      have hk : k ≤ 4 := hl (k, v) (by simp)
      obtain ⟨h1, _, h3, _⟩ := C66_push ok hf hk hp
      have := ih (fun q hq => hl q (by simp [hq])) s1 (h3.flat hf) h
      rw [h3.modulus, h1] at this
      rw [total_cons, show off s' + (k + total l) = off s' + total l + k by omega, ← Nat.mod_add_mod, this,
        Nat.mod_add_mod]
      have hM := modulus_pos s
      rw [show off s + modulus s - k + k = off s + modulus s by omega, Nat.add_mod_right]
      exact Nat.mod_eq_of_lt (off_lt s)

/-- C81: a procedure that pops its own arguments (RET imm with the size of what the caller pushed)
leaves the stack pointer as it was before the first argument was pushed. -/
theorem C81_stdcall (ok : Ok) (hrw : ∀ a k, ok a k true = true → ok a k false = true)
    (s0 s c u : St) (hf : Flat s0.stk) (args : List (Nat × Nat)) (hl : ∀ p ∈ args, p.1 ≤ 4)
    (hargs : pushAll ok s0.stk args = some s.stk)
    (len : Nat) (rel : Int) (z : Bool) (hc : callRel ok s len rel z = .done c)
    (hseg : SameSeg c.stk u.stk) (ho : off u.stk = off c.stk)
    (hslot : ∀ i < opBytes z, u.stk.mem (lin c.stk (off c.stk) + BitVec.ofNat 32 i) =
      c.stk.mem (lin c.stk (off c.stk) + BitVec.ofNat 32 i)) :
    ∃ t, ret ok u (total args) z =
        .done (goto { u with stk := t } (archNext s.eip len % 256 ^ opBytes z)) ∧
      t.esp = s0.stk.esp ∧ t.mem = u.stk.mem := by
  have hsame := pushAll_same ok args hl s0.stk s.stk hf hargs
  obtain ⟨t, h1, h2, h3, h4⟩ := C81_call_ret ok hrw s c u (hsame.flat hf) len rel z hc hseg ho hslot (total args)
  refine ⟨t, h1, esp_ext (hsame.trans h4) ?_, h3⟩
  rw [h2, hsame.modulus]
  exact pushAll_off ok args hl s0.stk s.stk hf hargs

/-- Execute calls one after the other (each with its length, displacement and operand size). -/
def calls (ok : Ok) : St → List (Nat × Int × Bool) → Option St
  | s, [] => some s
  | s, (len, rel, z) :: l => match callRel ok s len rel z with
    | .fault _ => none
    | .done t => calls ok t l

/-- Execute returns of the given operand sizes; the addresses returned to and the last state. -/
def rets (ok : Ok) : St → List Bool → Option (List (BitVec 32) × St)
  | s, [] => some ([], s)
  | s, z :: l => match ret ok s 0 z with
    | .fault _ => none
    | .done t => match rets ok t l with
      | none => none
      | some (es, u) => some (t.eip :: es, u)

/-- The return addresses of nested calls, outermost first. -/
def returns (eip : BitVec 32) : List (Nat × Int × Bool) → List Nat
  | [] => []
  | (len, rel, z) :: l =>
    archNext eip len % 256 ^ opBytes z :: returns (BitVec.ofNat 32 (archTarget eip len rel z)) l

theorem addEsp_zero (t : Stack.St) : addEsp t 0 = t := by
  obtain ⟨h1, h2, h3⟩ := addEsp_spec t 0
  have : (addEsp t 0).esp = t.esp := esp_ext h3 (by rw [h1, Nat.add_zero, Nat.mod_eq_of_lt (off_lt t)])
  have e : addEsp t 0 = { t with esp := (addEsp t 0).esp } := by unfold addEsp; split <;> rfl
  rw [e, this]

theorem rets_pops (ok : Ok) (zs : List Bool) (s : St) :
    rets ok s zs = match popAll ok s.stk (zs.map opBytes) with
      | none => none
      | some (vs, t) => some (vs.map (BitVec.ofNat 32),
          { s with stk := t, eip := (vs.map (BitVec.ofNat 32)).getLastD s.eip }) := by
  induction zs generalizing s with
  | nil => rfl
  | cons z zs ih =>
    simp only [rets, ret, List.map_cons, popAll]
    cases pop ok s.stk (opBytes z) with
    | none => rfl
    | some p =>
      obtain ⟨v, t⟩ := p
      simp only [addEsp_zero, ih]
      cases popAll ok t (zs.map opBytes) with
      | none => rfl
      | some q =>
        obtain ⟨vs, t'⟩ := q
        simp only [List.map_cons, List.getLastD_cons]

theorem calls_items (ok : Ok) (l : List (Nat × Int × Bool)) (s s' : St) (h : calls ok s l = some s') :
    ∃ items : List (Nat × Nat), pushAll ok s.stk items = some s'.stk ∧
      items.map Prod.fst = l.map (fun p => opBytes p.2.2) ∧
      items.map (fun p => p.2 % 256 ^ p.1) = returns s.eip l ∧
      s' = { s with stk := s'.stk, eip := s'.eip } := by
  induction l generalizing s with
  | nil =>
    rw [calls] at h; obtain rfl := Option.some.inj h
    exact ⟨[], rfl, rfl, rfl, rfl⟩
  | cons p l ih =>
    obtain ⟨len, rel, z⟩ := p
    rw [calls] at h
    have hn : (next s len).toNat = archNext s.eip len := by
      rw [next_eq, BitVec.toNat_ofNat]; exact Nat.mod_eq_of_lt (Nat.mod_lt _ (by omega))
    unfold callRel at h
    rw [hn] at h
    cases hp : push ok s.stk (opBytes z) (archNext s.eip len) with
    | none => rw [hp] at h; cases h
    | some t =>
      rw [hp] at h
      simp only at h
      obtain ⟨items, i1, i2, i3, i4⟩ := ih _ h
      refine ⟨(opBytes z, archNext s.eip len) :: items, ?_, ?_, ?_, ?_⟩
      · rw [pushAll, hp]; exact i1
      · simp only [List.map_cons, i2]
      · simp only [List.map_cons, i3, returns]
        rw [target_eq]
      · rw [i4]

/-- C81: any depth of nested calls is undone by as many returns: they come back to the return
addresses in reverse order, and the stack pointer, the segment, ECX and the flags are as before the
first call. -/
theorem C81_nested (ok : Ok) (hrw : ∀ a k, ok a k true = true → ok a k false = true)
    (l : List (Nat × Int × Bool)) (s s' : St) (hf : Flat s.stk)
    (hroom : (l.map (fun p => opBytes p.2.2)).sum ≤ modulus s.stk)
    (h : calls ok s l = some s') :
    ∃ u, rets ok s' (l.reverse.map (fun p => p.2.2)) =
        some ((returns s.eip l).reverse.map (BitVec.ofNat 32), u) ∧
      u = { s with stk := { s.stk with mem := s'.stk.mem }, eip := u.eip } := by
  obtain ⟨items, i1, i2, i3, i4⟩ := calls_items ok l s s' h
  have hl : ∀ p ∈ items, p.1 ≤ 4 := by
    intro p hp
    have : p.1 ∈ items.map Prod.fst := List.mem_map_of_mem hp
    rw [i2] at this
    obtain ⟨q, _, hq⟩ := List.mem_map.1 this
    rw [← hq]; exact opBytes_le _
  have hsum : total items ≤ modulus s.stk := by unfold total; rw [i2]; exact hroom
  have hpop := C66_lifo ok hrw items hl s.stk s'.stk hf hsum i1
  have e1 : items.reverse.map Prod.fst = (l.reverse.map (fun p => p.2.2)).map opBytes := by
    rw [List.map_reverse, i2, ← List.map_reverse, List.map_map]; rfl
  have e2 : items.reverse.map (fun p => p.2 % 256 ^ p.1) = (returns s.eip l).reverse := by
    rw [List.map_reverse, i3]
  rw [e1, e2] at hpop
  rw [rets_pops, hpop]
  refine ⟨_, rfl, ?_⟩
  rw [i4]

theorem st_ext {x y : Stack.St} (h1 : x.esp = y.esp) (h2 : x.ebp = y.ebp) (h3 : x.base = y.base)
    (h4 : x.ss32 = y.ss32) (h5 : x.ssZero = y.ssZero) (h6 : x.mem = y.mem) : x = y := by
  cases x; cases y; simp only at *; subst h1 h2 h3 h4 h5 h6; rfl

/-! ### Far transfers in real and virtual 8086 mode -/

/-- C81, far JMP outside protected mode. -/
theorem C81_far_jmp (s : St) (sel : BitVec 16) (o : BitVec 32) (z : Bool) :
    jmpFar s sel o z = { s with cs := sel, csBase := BitVec.ofNat 32 (sel.toNat * 16)
                                eip := BitVec.ofNat 32 (o.toNat % 256 ^ opBytes z) } := by
  have h1 : (if z then o else o &&& 0xFFFF#32) = BitVec.ofNat 32 (o.toNat % 256 ^ opBytes z) := by
    apply BitVec.eq_of_toNat_eq
    have := o.isLt
    rw [BitVec.toNat_ofNat]
    cases z
    · simp only [Bool.false_eq_true, if_false, opBytes, mask16]; omega
    · simp only [if_true, opBytes]; omega
  have h2 : (sel.setWidth 32 <<< 4 : BitVec 32) = BitVec.ofNat 32 (sel.toNat * 16) := by
    apply BitVec.eq_of_toNat_eq
    have := sel.isLt
    rw [BitVec.toNat_shiftLeft, BitVec.toNat_setWidth, Nat.shiftLeft_eq, BitVec.toNat_ofNat]
    omega
  unfold jmpFar
  rw [h1, h2]

/-- C81, far CALL outside protected mode: control goes to the selector (base 16 times the selector) and the offset cut to the operand size; CS
and the return address were pushed. -/
theorem C81_far_call (ok : Ok) (s c : St) (len : Nat) (sel : BitVec 16) (o : BitVec 32) (z : Bool) (hc : callFar ok s len sel o z = .done c) :
    c.cs = sel ∧ c.csBase = BitVec.ofNat 32 (sel.toNat * 16) ∧ c.eip = BitVec.ofNat 32 (o.toNat % 256 ^ opBytes z) ∧
      pushAll ok s.stk [(opBytes z, s.cs.toNat), (opBytes z, archNext s.eip len)] = some c.stk := by
  have hn : (next s len).toNat = archNext s.eip len := by
    rw [next_eq, BitVec.toNat_ofNat]; exact Nat.mod_eq_of_lt (Nat.mod_lt _ (by omega))
  have hj := C81_far_jmp s sel o z
  unfold jmpFar at hj
  unfold callFar at hc
  rw [hn] at hc
  cases hp : push ok s.stk (opBytes z) s.cs.toNat with
  | none => rw [hp] at hc; cases hc
  | some t1 =>
    rw [hp] at hc
    simp only at hc
    cases hq : push ok t1 (opBytes z) (archNext s.eip len) with
    | none => rw [hq] at hc; cases hc
    | some t2 =>
      rw [hq] at hc
      simp only [Out.done.injEq] at hc
      refine ⟨by rw [← hc], ?_, ?_, ?_⟩
      · rw [← hc]; exact congrArg St.csBase hj
      · rw [← hc]; exact congrArg St.eip hj
      · rw [← hc]; simp only [pushAll, hp, hq]

/-- C81, far CALL and RET outside protected mode: the RET of a far procedure that keeps its two stack
slots comes back to the caller's CS, CS base, EIP and stack pointer. -/
theorem C81_far_call_ret (ok : Ok) (hrw : ∀ a k, ok a k true = true → ok a k false = true)
    (s c u : St) (hf : Flat s.stk) (hb : s.csBase = BitVec.ofNat 32 (s.cs.toNat * 16))
    (len : Nat) (sel : BitVec 16) (o : BitVec 32) (z : Bool)
    (hc : callFar ok s len sel o z = .done c)
    (hseg : SameSeg c.stk u.stk) (ho : off u.stk = off c.stk) (hmem : u.stk.mem = c.stk.mem) (imm : Nat) :
    ∃ t, retFar ok u imm z = .done { u with stk := t, cs := s.cs, csBase := s.csBase
                                            eip := BitVec.ofNat 32 (archNext s.eip len % 256 ^ opBytes z) } ∧
      off t = (off s.stk + imm) % modulus s.stk ∧ t.mem = u.stk.mem ∧ SameSeg s.stk t := by
  have hn : (next s len).toNat = archNext s.eip len := by
    rw [next_eq, BitVec.toNat_ofNat]; exact Nat.mod_eq_of_lt (Nat.mod_lt _ (by omega))
  have hM := modulus_pos s.stk
  unfold callFar at hc
  rw [hn] at hc
  cases hp : push ok s.stk (opBytes z) s.cs.toNat with
  | none => rw [hp] at hc; cases hc
  | some t1 =>
    rw [hp] at hc
    simp only at hc
    cases hq : push ok t1 (opBytes z) (archNext s.eip len) with
    | none => rw [hq] at hc; cases hc
    | some t2 =>
      rw [hq] at hc
      simp only [Out.done.injEq] at hc
      have hct : c.stk = t2 := by rw [← hc]
      rw [hct] at hseg ho hmem
      have hpa : pushAll ok s.stk [(opBytes z, s.cs.toNat), (opBytes z, archNext s.eip len)] = some t2 := by
        simp only [pushAll, hp, hq]
      have hk := opBytes_le z
      have hlifo := C66_lifo ok hrw _ (by intro p hp; simp at hp; rcases hp with rfl | rfl <;> exact hk)
        s.stk t2 hf (by simp only [total, List.map_cons, List.map_nil, List.sum_cons, List.sum_nil]; omega) hpa
      have hu : u.stk = t2 := by
        have e := esp_ext hseg ho
        obtain ⟨b1, b2, b3, b4, _⟩ := hseg
        exact st_ext e b4 b1 b2 b3 hmem
      simp only [List.reverse_cons, List.reverse_nil, List.nil_append, List.cons_append, List.map_cons,
        List.map_nil, popAll] at hlifo
      cases hx : pop ok t2 (opBytes z) with
      | none => rw [hx] at hlifo; cases hlifo
      | some p =>
        obtain ⟨v, r1⟩ := p
        rw [hx] at hlifo
        simp only at hlifo
        cases hy : pop ok r1 (opBytes z) with
        | none => rw [hy] at hlifo; cases hlifo
        | some q =>
          obtain ⟨w, r2⟩ := q
          rw [hy] at hlifo
          simp only [Option.some.injEq, Prod.mk.injEq, List.cons.injEq, and_true] at hlifo
          obtain ⟨⟨rfl, rfl⟩, rfl⟩ := hlifo
          obtain ⟨a1, a2, a3⟩ := addEsp_spec { s.stk with mem := t2.mem } imm
          refine ⟨addEsp { s.stk with mem := t2.mem } imm, ?_, a1, ?_, ?_⟩
          · unfold retFar
            rw [hu, hx]
            simp only
            rw [hy]
            simp only
            have hcs : BitVec.ofNat 16 (s.cs.toNat % 256 ^ opBytes z) = s.cs := by
              apply BitVec.eq_of_toNat_eq
              have := s.cs.isLt
              rw [BitVec.toNat_ofNat]
              cases z <;> simp only [opBytes, Bool.false_eq_true, if_false, if_true] <;> omega
            have h2 : (s.cs.setWidth 32 <<< 4 : BitVec 32) = BitVec.ofNat 32 (s.cs.toNat * 16) := by
              apply BitVec.eq_of_toNat_eq
              have := s.cs.isLt
              rw [BitVec.toNat_shiftLeft, BitVec.toNat_setWidth, Nat.shiftLeft_eq, BitVec.toNat_ofNat]
              omega
            rw [hcs, h2, hb]
          · rw [a2, hu]
          · exact SameSeg.trans (s := s.stk) (t := { s.stk with mem := t2.mem })
              ⟨rfl, rfl, rfl, rfl, fun _ => rfl⟩ a3

/-- C81, faults: a far CALL or far RET outside protected mode that faults leaves the state unchanged,
except that the second push of a far CALL is excluded. -/
theorem C81_far_fault_partial (ok : Ok) (s t : St) (len imm : Nat) (sel : BitVec 16) (o : BitVec 32) (z : Bool) :
    (callFar ok s len sel o z = .fault t →
      (∃ x, push ok s.stk (opBytes z) s.cs.toNat = some x ∧ t = { s with stk := x }) ∨ t = s) ∧
    (retFar ok s imm z = .fault t → t = s) := by
  constructor
  · intro h
    unfold callFar at h
    split at h
    · cases h; exact .inr rfl
    · rename_i x hx
      split at h
      · cases h; exact .inl ⟨x, hx, rfl⟩
      · cases h
  · intro h
    unfold retFar at h
    split at h
    · cases h; rfl
    · split at h
      · cases h; rfl
      · cases h

/-- An example: 32 bit flat code and stack. -/
def sEx : St := { stk := Stack.sEx, fl := ⟨2#32, 0#32, 0#32⟩, ecx := 3#32, eip := 0x100#32, cs := 8#16, csBase := 0#32 }

/-- The code violates C81: in virtual 8086 mode a far CALL whose second push faults has already moved
SP, so executing it again after the fault has been served pushes CS twice. -/
theorem C81_far_call_fault_violation :
    ∃ (ok : Ok) (s t : St), callFar ok s 5 0x1234#16 0x10#32 false = .fault t ∧ t.stk.esp ≠ s.stk.esp :=
  ⟨fun a _ _ => a == 0x1FFE#32, { sEx with stk := { Stack.sEx with ss32 := false, base := 0x1000#32, ssZero := false } },
   _, rfl, by decide +kernel⟩

-- A conditional jump backwards out of the first bytes of a 16 bit segment wraps.
example : (jcc sEx .z 2 (-0x110) false).eip = 0xFFF2#32 := by decide +kernel
-- The hypotheses of the loop theorem are met by an empty body.
example : Body (fun s => s.eip = 0x100#32 ∨ s.eip = 0xF0#32 ∨ s.eip = 0x102#32) (fun s => { s with eip := 0x100#32, fl := sEx.fl })
    0x100#32 .loop 2 (-0x12) true false :=
  ⟨fun _ _ => rfl, fun _ _ => rfl, fun _ _ => show Flags.Clean sEx.fl by unfold Flags.Clean; decide +kernel, fun s _ => by
    obtain ⟨c, h, _⟩ := C81_loop { s with eip := 0x100#32, fl := sEx.fl } (show Flags.Clean sEx.fl by unfold Flags.Clean; decide +kernel) .loop 2 (-0x12) true false
    rw [h]
    dsimp only
    split
    · exact .inr (.inl (show BitVec.ofNat 32 (archTarget 0x100#32 2 (-0x12) true) = 0xF0#32 by decide +kernel))
    · exact .inr (.inr (show BitVec.ofNat 32 (archNext 0x100#32 2) = 0x102#32 by decide +kernel))⟩
example : passes sEx false = 3 ∧ passes { sEx with ecx := 0x50000#32 } false = 65536 := by decide +kernel
-- Nested calls of both operand sizes.
example : (calls (fun _ _ _ => true) sEx [(5, 0x1000, true), (3, -0x80, false)]).isSome = true ∧
    returns sEx.eip [(5, 0x1000, true), (3, -0x80, false)] = [0x105, 0x1108] := by decide +kernel
example : ∃ c, callFar (fun _ _ _ => true) sEx 7 0x1234#16 0x56789#32 false = .done c ∧ c.eip = 0x6789#32 ∧
    c.csBase = 0x12340#32 := ⟨_, rfl, by decide +kernel⟩

end Verif.Near
