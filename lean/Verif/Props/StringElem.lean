import Verif.Spec.StringOps
import Verif.Props.StringOps
import Verif.Props.Flags
/-
C65 against `Spec/StringOps.lean`: every element and every repetition.
-/
namespace Verif.StringOps
open Guest Spec
open Verif.Flags (Clean flags flags_eq Width)

theorem num_load (m : Mem) : ∀ (k : Nat) (a : BitVec 32), num m a k = load m a k := by
  have shift : ∀ (k : Nat) (a : BitVec 32), load m a (k + 1) = (m a).toNat + 256 * load m (a + 1#32) k := by
    intro k
    induction k with
    | zero => intro a; simp [load]
    | succ k ih =>
      intro a
      rw [load, ih, load, Nat.mul_add, show a + BitVec.ofNat 32 (k + 1) = a + 1#32 + BitVec.ofNat 32 k by
        rw [BitVec.ofNat_add]; grind, Nat.pow_succ]
      have : 256 * ((m (a + 1#32 + BitVec.ofNat 32 k)).toNat * 256 ^ k) = (m (a + 1#32 + BitVec.ofNat 32 k)).toNat * (256 ^ k * 256) := by
        rw [Nat.mul_comm 256, Nat.mul_assoc]
      omega
  intro k
  induction k with
  | zero => intro a; rfl
  | succ k ih => intro a; rw [shift, num, ih]

theorem size_eq (a32 : Bool) : Spec.size a32 = idxMod a32 := by cases a32 <;> rfl

theorem rd_val (a32 : Bool) (r : BitVec 32) : (rdIdx a32 r).toNat = r.toNat % Spec.size a32 := by
  cases a32
  · exact low16_toNat r
  · exact (Nat.mod_eq_of_lt r.isLt).symm

theorem at_eq (a32 : Bool) (base r : BitVec 32) : rdIdx a32 r + base = at_ a32 base r := by
  unfold at_
  rw [← rd_val, BitVec.ofNat_toNat, BitVec.setWidth_eq, BitVec.add_comm]

/-- Writing an index register. -/
theorem wr_high (a32 : Bool) (r v : BitVec 32) : (wrIdx a32 r v).toNat / Spec.size a32 = r.toNat / Spec.size a32 := by
  cases a32
  · have : wrIdx false r v = (r &&& 0xFFFF0000#32) + (v &&& 0xFFFF#32) := by
      unfold wrIdx
      rw [BitVec.add_eq_or_of_and_eq_zero _ _ (by bits32)]
      rfl
    rw [this, BitVec.toNat_add, low16_toNat]
    have e : r &&& 0xFFFF0000#32 = (r >>> 16) <<< 16 := by bits32
    rw [e, BitVec.toNat_shiftLeft, BitVec.toNat_ushiftRight, Nat.shiftLeft_eq, Nat.shiftRight_eq_div_pow]
    have := r.isLt
    show _ / 65536 = _ / 65536
    omega
  · have h1 := r.isLt
    have h2 := (wrIdx true r v).isLt
    show _ / 4294967296 = _ / 4294967296
    omega

theorem moves_wr (a32 : Bool) (r v : BitVec 32) (d : Int) (h : (v.toNat : Int) % (Spec.size a32 : Nat) = (r.toNat + d) % (Spec.size a32 : Nat)) :
    Moves a32 d r (wrIdx a32 r v) := by
  refine ⟨?_, wr_high a32 r v⟩
  rw [← rd_val, rd_wr_toNat, ← size_eq, ← h, Int.natCast_emod]

theorem moves_step (e : Enc) (hv : e.Valid) (s : St) (r : BitVec 32) : Moves e.a32 (stride e s) r (stepIdx e s.df r) := by
  apply moves_wr
  have hk : e.k ≤ 4 := by rcases hv with h | h | h <;> omega
  have hr := rd_val e.a32 r
  have hlt := r.isLt
  unfold stride
  generalize rdIdx e.a32 r = x at *
  cases h32 : e.a32 <;> cases hdf : s.df <;> rw [h32] at hr <;>
    simp only [Spec.size, Bool.false_eq_true, if_false, if_true, BitVec.toNat_add, BitVec.toNat_sub, BitVec.toNat_ofNat] at hr ⊢ <;> omega

theorem moves_dec (e : Enc) (s : St) : Moves e.a32 (-1) s.ecx (decCount e s).ecx := by
  apply moves_wr
  have hr := rd_val e.a32 s.ecx
  have hlt := s.ecx.isLt
  generalize rdIdx e.a32 s.ecx = x at *
  cases h32 : e.a32 <;> rw [h32] at hr <;>
    simp only [Spec.size, Bool.false_eq_true, if_false, if_true, BitVec.toNat_sub, BitVec.toNat_ofNat] at hr ⊢ <;> omega

theorem setAcc_toNat (k : Nat) (hk : k = 1 ∨ k = 2 ∨ k = 4) (r : BitVec 32) (v : Nat) (hv : v < 256 ^ k) :
    (setAcc k r v).toNat = r.toNat / 256 ^ k * 256 ^ k + v := by
  have hr := r.isLt
  rcases hk with rfl | rfl | rfl
  · simp only [setAcc, show ¬ (1 : Nat) = 4 by decide, show ¬ (1 : Nat) = 2 by decide, if_false]
    have e : r &&& 0xFFFFFF00#32 = (r >>> 8) <<< 8 := by bits32
    have e2 : (BitVec.ofNat 32 v &&& 0xFF#32).toNat = v := by
      rw [BitVec.toNat_and, BitVec.toNat_ofNat]
      show _ &&& (2 ^ 8 - 1) = v
      rw [Nat.and_two_pow_sub_one_eq_mod]
      omega
    have : (r &&& 0xFFFFFF00#32) ||| (BitVec.ofNat 32 v &&& 0xFF#32) = (r &&& 0xFFFFFF00#32) + (BitVec.ofNat 32 v &&& 0xFF#32) := by
      rw [BitVec.add_eq_or_of_and_eq_zero]
      generalize BitVec.ofNat 32 v = w
      bits32
    rw [this, BitVec.toNat_add, e2, e, BitVec.toNat_shiftLeft, BitVec.toNat_ushiftRight, Nat.shiftLeft_eq, Nat.shiftRight_eq_div_pow]
    omega
  · simp only [setAcc, show ¬ (2 : Nat) = 4 by decide, if_false, if_true]
    have e : r &&& 0xFFFF0000#32 = (r >>> 16) <<< 16 := by bits32
    have e2 : (BitVec.ofNat 32 v &&& 0xFFFF#32).toNat = v := by
      rw [low16_toNat, BitVec.toNat_ofNat]
      omega
    have : (r &&& 0xFFFF0000#32) ||| (BitVec.ofNat 32 v &&& 0xFFFF#32) = (r &&& 0xFFFF0000#32) + (BitVec.ofNat 32 v &&& 0xFFFF#32) := by
      rw [BitVec.add_eq_or_of_and_eq_zero]
      generalize BitVec.ofNat 32 v = w
      bits32
    rw [this, BitVec.toNat_add, e2, e, BitVec.toNat_shiftLeft, BitVec.toNat_ushiftRight, Nat.shiftLeft_eq, Nat.shiftRight_eq_div_pow]
    omega
  · simp only [setAcc, if_true, BitVec.toNat_ofNat]
    omega

theorem width8 (e : Enc) (hv : e.Valid) : Width (8 * e.k) := by
  unfold Width
  rcases hv with h | h | h <;> rw [h] <;> omega

/-- **C65**, one element: the instruction makes exactly the specified accesses, faulting without effect if one of them is not allowed, and
has exactly the specified effect. -/
theorem C65_element (ok : Ok) (e : Enc) (hv : e.Valid) (s : St) (hc : Clean s.fl) :
    ((∃ t, elem ok e s = some t) ↔ ∀ p ∈ touches e s, ok p.1 e.k p.2 = true) ∧ ∀ t, elem ok e s = some t → Elem e s t ∧ Clean t.fl := by
  unfold elem touches Elem
  simp only [at_eq, ← num_load]
  cases hi : e.i with
  | movs =>
    refine ⟨by simp, fun t h => ?_⟩
    dsimp only at h
    split at h
    · cases h
      exact ⟨⟨rfl, fun x => rfl, moves_step e hv s _, moves_step e hv s _⟩, hc⟩
    · cases h
  | stos =>
    refine ⟨by simp, fun t h => ?_⟩
    dsimp only at h
    split at h
    · cases h
      exact ⟨⟨rfl, fun x => rfl, moves_step e hv s _⟩, hc⟩
    · cases h
  | lods =>
    refine ⟨by simp, fun t h => ?_⟩
    dsimp only at h
    split at h
    · cases h
      exact ⟨⟨rfl, setAcc_toNat e.k hv _ _ (by rw [num_load]; exact load_lt _ _ _), moves_step e hv s _⟩, hc⟩
    · cases h
  | cmps =>
    refine ⟨by simp [and_comm], fun t h => ?_⟩
    dsimp only at h
    split at h
    · cases h
      exact ⟨⟨rfl, rfl, (Flags.C26_sub (width8 e hv) s.fl hc _ _).2, moves_step e hv s _, moves_step e hv s _⟩, hc⟩
    · cases h
  | scas =>
    refine ⟨by simp, fun t h => ?_⟩
    dsimp only at h
    split at h
    · cases h
      exact ⟨⟨rfl, rfl, (Flags.C26_sub (width8 e hv) s.fl hc _ _).2, moves_step e hv s _⟩, hc⟩
    · cases h

theorem zf_eq {f : Flags.St} (h : Clean f) : (flags f).zf = (Flags.ldZf f == 0#32) := by
  rw [flags_eq h]
  simp only [Flags.ldZf]
  by_cases h : f.res = 0#32 <;> simp [h]

theorem goOn_eq (r : Rep) (s : St) (h : Clean s.fl) : goOn r s = repeats r (flags s.fl).zf := by
  rw [zf_eq h]
  cases r
  · rfl
  · rfl
  · simp only [goOn, repeats]
    rfl

/-- **C65**, the prefix: a completed REP, REPE or REPNE instruction made exactly as many repetitions as the count register says, or, for
REPE and REPNE, stopped after the first one that leaves the zero flag in the state that ends it. -/
theorem C65_rep (ok : Ok) (e : Enc) (hv : e.Valid) (r : Rep) (s t : St) (hc : Clean s.fl) (h : repInstr ok e r s = .done t) :
    ∃ n, Turns e r n s t ∧ n ≤ s.ecx.toNat % Spec.size e.a32 ∧
      (n = s.ecx.toNat % Spec.size e.a32 ∨ 0 < n ∧ repeats r (flags t.fl).zf = false) := by
  unfold repInstr at h
  have hcount : count e s = s.ecx.toNat % Spec.size e.a32 := rd_val _ _
  rw [← hcount]
  generalize hn : count e s = n at h
  clear hcount
  induction n generalizing s with
  | zero =>
    rw [loop] at h
    cases h
    exact ⟨0, .zero _, Nat.le_refl _, .inl rfl⟩
  | succ n ih =>
    rw [loop] at h
    cases he : elem ok e s with
    | none => rw [he] at h; cases h
    | some s1 =>
      rw [he] at h
      dsimp only at h
      obtain ⟨h1, h2⟩ := (C65_element ok e hv s hc).2 s1 he
      have hturn : Turn e s (decCount e s1) := ⟨s1, h1, rfl, moves_dec e s1⟩
      have hcnt : count e (decCount e s1) = n := by
        have := count_elem he
        rw [count_dec e s1 (by omega)]
        omega
      rw [hcnt] at h
      by_cases h0 : n = 0
      · rw [if_pos h0] at h
        cases h
        subst h0
        exact ⟨1, .one hturn, Nat.le_refl _, .inl rfl⟩
      · rw [if_neg h0] at h
        by_cases hg : goOn r (decCount e s1) = true
        · rw [if_pos hg] at h
          obtain ⟨m, m1, m2, m3⟩ := ih (decCount e s1) h2 hcnt h
          have hm0 : m ≠ 0 := by omega
          obtain ⟨m, rfl⟩ := Nat.exists_eq_succ_of_ne_zero hm0
          refine ⟨m + 2, .more hturn ((goOn_eq r _ h2).symm.trans hg) m1, by omega, ?_⟩
          rcases m3 with m3 | m3
          · left; omega
          · right; exact ⟨by omega, m3.2⟩
        · rw [if_neg hg] at h
          cases h
          refine ⟨1, .one hturn, by omega, .inr ⟨by omega, ?_⟩⟩
          rw [← goOn_eq r (decCount e s1) h2]
          simpa using hg

/-- A backward copy of two words with 16 bit addressing: SI and DI wrap, the upper halves stay. -/
def sBack : St := { s0 with esi := 0xABCD0000#32, edi := 0x12340002#32, ecx := 0x00050002#32, df := true }
example : ∃ t, repInstr (fun _ _ _ => true) ⟨.movs, 2, false⟩ .rep sBack = .done t ∧
    t.esi = 0xABCDFFFC#32 ∧ t.edi = 0x1234FFFE#32 ∧ t.ecx = 0x00050000#32 := by
  refine ⟨_, by unfold repInstr; rfl, ?_, ?_, ?_⟩ <;> decide +kernel
example : Clean sBack.fl ∧ Enc.Valid ⟨.movs, 2, false⟩ := ⟨by unfold Clean; decide, .inr (.inl rfl)⟩

end Verif.StringOps
