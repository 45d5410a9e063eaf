import Verif.Model.StringOps
import Verif.Lemmas.GuestMem
import Verif.Lemmas.Flags
/-
C65: REP prefixed string instructions.
-/
namespace Verif.StringOps
open Guest

/-- The element sizes. -/
def Enc.Valid (e : Enc) : Prop := e.k = 1 ∨ e.k = 2 ∨ e.k = 4

/-! Index registers. -/

theorem low16_toNat (v : BitVec 32) : (v &&& 0xFFFF#32).toNat = v.toNat % 65536 := by
  rw [BitVec.toNat_and]; exact Nat.and_two_pow_sub_one_eq_mod _ 16

theorem rd_wr (a32 : Bool) (r v : BitVec 32) : rdIdx a32 (wrIdx a32 r v) = if a32 then v else v &&& 0xFFFF#32 := by
  cases a32
  · simp only [rdIdx, wrIdx, Bool.false_eq_true, if_false]; bits32
  · rfl

/-- The number of values of an index register. -/
def idxMod (a32 : Bool) : Nat := if a32 then 2 ^ 32 else 65536

theorem rd_lt (a32 : Bool) (r : BitVec 32) : (rdIdx a32 r).toNat < idxMod a32 := by
  cases a32
  · simp only [rdIdx, idxMod, Bool.false_eq_true, if_false, low16_toNat]; omega
  · exact r.isLt

theorem rd_wr_toNat (a32 : Bool) (r v : BitVec 32) :
    (rdIdx a32 (wrIdx a32 r v)).toNat = v.toNat % idxMod a32 := by
  rw [rd_wr]
  cases a32
  · simp only [idxMod, Bool.false_eq_true, if_false, low16_toNat]
  · simp only [idxMod, if_true]; exact (Nat.mod_eq_of_lt v.isLt).symm

theorem count_dec (e : Enc) (s : St) (h : 0 < count e s) : count e (decCount e s) = count e s - 1 := by
  unfold count decCount at *
  have hl := rd_lt e.a32 s.ecx
  have hm : idxMod e.a32 ≤ 2 ^ 32 := by unfold idxMod; split <;> omega
  rw [rd_wr_toNat, BitVec.toNat_sub]
  have : (1#32).toNat = 1 := rfl
  rw [this]
  have h2 : (2 ^ 32 - 1 + (rdIdx e.a32 s.ecx).toNat) % 2 ^ 32 = (rdIdx e.a32 s.ecx).toNat - 1 := by omega
  rw [h2]
  exact Nat.mod_eq_of_lt (by omega)

/-- What an element leaves alone. -/
theorem elem_keeps {ok : Ok} {e : Enc} {s s1 : St} (h : elem ok e s = some s1) :
    s1.ecx = s.ecx ∧ s1.df = s.df ∧ s1.src = s.src ∧ s1.dst = s.dst ∧
    (e.i = .movs ∨ e.i = .cmps ∨ e.i = .lods → s1.esi = stepIdx e s.df s.esi) ∧
    (e.i = .stos ∨ e.i = .scas → s1.esi = s.esi) ∧
    (e.i = .movs ∨ e.i = .cmps ∨ e.i = .stos ∨ e.i = .scas → s1.edi = stepIdx e s.df s.edi) ∧
    (e.i = .lods → s1.edi = s.edi) ∧
    (e.i ≠ .lods → s1.eax = s.eax) ∧ (e.i ≠ .movs → e.i ≠ .stos → s1.mem = s.mem) ∧
    (e.i ≠ .cmps → e.i ≠ .scas → s1.fl = s.fl) := by
  unfold elem at h
  cases hi : e.i <;> simp only [hi] at h <;> split at h <;>
    first
    | (simp at h; done)
    | (obtain rfl := Option.some.inj h; simp)

theorem count_elem {ok : Ok} {e : Enc} {s s1 : St} (h : elem ok e s = some s1) : count e s1 = count e s := by
  unfold count; rw [(elem_keeps h).1]

/-! ### Repetition -/

/-- `n` elements in a row, each followed by the decrement of the count register. -/
def iter (ok : Ok) (e : Enc) : Nat → St → Option St
  | 0, s => some s
  | n + 1, s => match elem ok e s with
    | none => none
    | some s1 => iter ok e n (decCount e s1)

/-- C65: with a count of zero nothing happens. -/
theorem C65_zero (ok : Ok) (e : Enc) (r : Rep) (s : St) (h : count e s = 0) : repInstr ok e r s = .done s := by
  unfold repInstr; rw [h]; rfl

/-- C65: a completed instruction performed some number `j` of elements: all `count` of them, or for
REPZ/REPNZ fewer, in which case the condition failed after the last one and at no earlier one. -/
theorem C65_repeats (ok : Ok) (e : Enc) (r : Rep) (s t : St) (h : repInstr ok e r s = .done t) :
    ∃ j, j ≤ count e s ∧ iter ok e j s = some t ∧ count e t = count e s - j ∧
      (r = .rep → j = count e s) ∧ (j < count e s → goOn r t = false) ∧
      (0 < count e s → 0 < j) ∧
      (∀ i, 0 < i → i < j → ∃ u, iter ok e i s = some u ∧ goOn r u = true) := by
  unfold repInstr at h
  generalize hn : count e s = n at h ⊢
  induction n generalizing s with
  | zero =>
    rw [loop] at h
    obtain rfl := Out.done.inj h
    exact ⟨0, by omega, rfl, by omega, fun _ => rfl, fun h => by omega, fun h => by omega, fun i h1 h2 => by omega⟩
  | succ n ih =>
    rw [loop] at h
    cases he : elem ok e s with
    | none => rw [he] at h; exact absurd h (by simp)
    | some s1 =>
      rw [he] at h
      simp only at h
      have hc1 : count e s1 = n + 1 := by rw [count_elem he, hn]
      have hc2 : count e (decCount e s1) = n := by rw [count_dec e s1 (by omega)]; omega
      by_cases h0 : count e (decCount e s1) = 0
      · rw [if_pos h0] at h
        obtain rfl := Out.done.inj h
        have : n = 0 := by omega
        subst this
        refine ⟨1, by omega, ?_, by omega, fun _ => rfl, fun h => by omega, fun h => by omega, fun i h1 h2 => by omega⟩
        rw [iter, he]; rfl
      · rw [if_neg h0] at h
        cases hg : goOn r (decCount e s1) with
        | true =>
          rw [hg] at h
          simp only [if_true] at h
          obtain ⟨j, hj, hi, hct, hr, hlt, _, hall⟩ := ih (decCount e s1) hc2 h
          refine ⟨j + 1, by omega, ?_, by omega, fun h => by have := hr h; omega, fun h => hlt (by omega), fun _ => by omega, ?_⟩
          · rw [iter, he]; exact hi
          · intro i h1 h2
            obtain ⟨i', rfl⟩ : ∃ i', i = i' + 1 := ⟨i - 1, by omega⟩
            by_cases hi0 : i' = 0
            · subst hi0
              exact ⟨decCount e s1, by rw [iter, he]; rfl, hg⟩
            · obtain ⟨u, hu, hgu⟩ := hall i' (by omega) (by omega)
              exact ⟨u, by rw [iter, he]; exact hu, hgu⟩
        | false =>
          rw [hg] at h
          simp only [Bool.false_eq_true, if_false] at h
          obtain rfl := Out.done.inj h
          refine ⟨1, by omega, ?_, by omega, ?_, fun _ => hg, fun _ => by omega, fun i h1 h2 => by omega⟩
          · rw [iter, he]; rfl
          · intro hr; subst hr; exact absurd hg (by simp [goOn])

/-! ### Faults and restarts -/

theorem elem_mono {ok1 ok2 : Ok} (hle : ∀ a k w, ok1 a k w = true → ok2 a k w = true) {e : Enc} {s s1 : St}
    (h : elem ok1 e s = some s1) : elem ok2 e s = some s1 := by
  unfold elem at h ⊢
  cases hi : e.i <;> simp only [hi] at h ⊢ <;> split at h <;>
    first
    | (simp at h; done)
    | (rename_i hc
       rw [if_pos]
       · exact h
       · first
         | exact hle _ _ _ hc
         | exact Bool.and_eq_true_iff.mpr ⟨hle _ _ _ (Bool.and_eq_true_iff.mp hc).1, hle _ _ _ (Bool.and_eq_true_iff.mp hc).2⟩)

theorem loop_resume {ok1 ok2 : Ok} (hle : ∀ a k w, ok1 a k w = true → ok2 a k w = true) (e : Enc) (r : Rep)
    (n : Nat) (s : St) (hn : count e s = n) :
    (∀ t, loop ok1 e r n s = .done t → loop ok2 e r n s = .done t) ∧
    (∀ t, loop ok1 e r n s = .fault t → loop ok2 e r (count e t) t = loop ok2 e r n s) := by
  induction n generalizing s with
  | zero =>
    refine ⟨fun t h => h, fun t h => ?_⟩
    rw [loop] at h; exact absurd h (by simp)
  | succ n ih =>
    cases he : elem ok1 e s with
    | none =>
      refine ⟨fun t h => ?_, fun t h => ?_⟩
      · rw [loop, he] at h; exact absurd h (by simp)
      · rw [loop, he] at h
        simp only at h
        obtain rfl := Out.fault.inj h
        rw [hn]
    | some s1 =>
      have he2 := elem_mono hle he
      have hc1 : count e s1 = n + 1 := by rw [count_elem he, hn]
      have hc2 : count e (decCount e s1) = n := by rw [count_dec e s1 (by omega)]; omega
      rw [loop, loop, he, he2]
      simp only
      by_cases h0 : count e (decCount e s1) = 0
      · rw [if_pos h0, if_pos h0]
        exact ⟨fun t h => h, fun t h => absurd h (by simp)⟩
      · rw [if_neg h0, if_neg h0]
        cases goOn r (decCount e s1) with
        | true => simp only [if_true]; exact ih (decCount e s1) hc2
        | false => simp only [Bool.false_eq_true, if_false]; exact ⟨fun t h => h, fun t h => absurd h (by simp)⟩

/-- Executing the instruction again and again after faults, with the accesses allowed at each attempt
given by the list; the last attempt's outcome. -/
def attempts (e : Enc) (r : Rep) : List Ok → St → Out
  | [], s => .fault s
  | ok :: l, s => match repInstr ok e r s with
    | .done t => .done t
    | .fault t => if l = [] then .fault t else attempts e r l t

/-- C65: an instruction interrupted by any number of page faults, at any elements, and restarted each
time after the fault has been repaired, has the effect of one uninterrupted execution. -/
theorem C65_restart (e : Enc) (r : Rep) (l : List Ok) (okf : Ok)
    (hle : ∀ ok ∈ l, ∀ a k w, ok a k w = true → okf a k w = true) (s t : St)
    (h : attempts e r l s = .done t) : repInstr okf e r s = .done t := by
  induction l generalizing s with
  | nil => exact absurd h (by simp [attempts])
  | cons ok l ih =>
    rw [attempts] at h
    cases hr : repInstr ok e r s with
    | done u =>
      rw [hr] at h
      simp only at h
      obtain rfl := Out.done.inj h
      exact (loop_resume (hle ok (by simp)) e r (count e s) s rfl).1 u hr
    | fault u =>
      rw [hr] at h
      simp only at h
      split at h
      · exact absurd h (by simp)
      · have h1 := (loop_resume (hle ok (by simp)) e r (count e s) s rfl).2 u hr
        have h2 := ih (fun o ho => hle o (by simp [ho])) u h
        unfold repInstr at h2 ⊢
        rw [← h1]; exact h2

/-- C65: a fault stops at an element boundary: the state it leaves is that after some number of whole
elements, with the count register reduced by that number. -/
theorem C65_fault_state (ok : Ok) (e : Enc) (r : Rep) (s t : St) (h : repInstr ok e r s = .fault t) :
    ∃ j, j < count e s ∧ iter ok e j s = some t ∧ count e t = count e s - j ∧ elem ok e t = none := by
  unfold repInstr at h
  generalize hn : count e s = n at h ⊢
  induction n generalizing s with
  | zero => rw [loop] at h; exact absurd h (by simp)
  | succ n ih =>
    rw [loop] at h
    cases he : elem ok e s with
    | none =>
      rw [he] at h
      simp only at h
      obtain rfl := Out.fault.inj h
      exact ⟨0, by omega, rfl, by omega, he⟩
    | some s1 =>
      rw [he] at h
      simp only at h
      have hc1 : count e s1 = n + 1 := by rw [count_elem he, hn]
      have hc2 : count e (decCount e s1) = n := by rw [count_dec e s1 (by omega)]; omega
      split at h
      · exact absurd h (by simp)
      · split at h
        · obtain ⟨j, h1, h2, h3, h4⟩ := ih (decCount e s1) hc2 h
          exact ⟨j + 1, by omega, by rw [iter, he]; exact h2, by omega, h4⟩
        · exact absurd h (by simp)

/-! ### Index registers after the repetition -/

/-- C65: after `j` elements the index registers of the instruction have moved by `j` times the
element size, up or down as DF says, modulo the address size, and the other one has not moved. -/
theorem C65_indices (ok : Ok) (e : Enc) (hv : e.Valid) (j : Nat) (s t : St) (h : iter ok e j s = some t) :
    let M : Int := idxMod e.a32
    let d : Int := if s.df then -(j * e.k : Int) else (j * e.k : Int)
    ((rdIdx e.a32 t.esi).toNat : Int) =
      (if e.i = .stos ∨ e.i = .scas then ((rdIdx e.a32 s.esi).toNat : Int)
       else ((rdIdx e.a32 s.esi).toNat + d) % M) ∧
    ((rdIdx e.a32 t.edi).toNat : Int) =
      (if e.i = .lods then ((rdIdx e.a32 s.edi).toNat : Int)
       else ((rdIdx e.a32 s.edi).toNat + d) % M) ∧ t.df = s.df := by
  have hstep : ∀ (df : Bool) (r : BitVec 32),
      ((rdIdx e.a32 (stepIdx e df r)).toNat : Int) =
        ((rdIdx e.a32 r).toNat + (if df then -(e.k : Int) else (e.k : Int))) % (idxMod e.a32 : Nat) := by
    intro df r
    have hl := rd_lt e.a32 r
    unfold stepIdx
    rw [rd_wr_toNat]
    have hM : idxMod e.a32 = 2 ^ 32 ∨ idxMod e.a32 = 65536 := by unfold idxMod; split <;> simp
    have hk : e.k ≤ 4 := by rcases hv with h | h | h <;> omega
    have hk0 : (BitVec.ofNat 32 e.k).toNat = e.k := by rw [BitVec.toNat_ofNat]; omega
    cases df
    · simp only [Bool.false_eq_true, if_false]
      rw [BitVec.toNat_add, hk0]
      rcases hM with hM | hM <;> rw [hM] at hl ⊢ <;> omega
    · simp only [if_true]
      rw [BitVec.toNat_sub, hk0]
      rcases hM with hM | hM <;> rw [hM] at hl ⊢ <;> omega
  induction j generalizing s with
  | zero =>
    rw [iter] at h
    obtain rfl := Option.some.inj h
    have h1 := rd_lt e.a32 s.esi
    have h2 := rd_lt e.a32 s.edi
    intro M d
    have hd : d = 0 := by simp [d]
    have hM1 : ∀ x : Nat, x < idxMod e.a32 → ((x : Int) + d) % M = x := by
      intro x hx
      rw [hd, Int.add_zero]
      exact Int.emod_eq_of_lt (by omega) (by show (x : Int) < (idxMod e.a32 : Nat); omega)
    refine ⟨?_, ?_, rfl⟩
    · split
      · rfl
      · exact (hM1 _ h1).symm
    · split
      · rfl
      · exact (hM1 _ h2).symm
  | succ j ih =>
    rw [iter] at h
    cases he : elem ok e s with
    | none => rw [he] at h; exact absurd h (by simp)
    | some s1 =>
      rw [he] at h
      obtain ⟨k1, k2, _, _, k5, k6, k7, k8, _⟩ := elem_keeps he
      obtain ⟨i1, i2, i3⟩ := ih (decCount e s1) h
      have d1 : (decCount e s1).esi = s1.esi := rfl
      have d2 : (decCount e s1).edi = s1.edi := rfl
      have d3 : (decCount e s1).df = s.df := k2
      rw [d1, d3] at i1
      rw [d2, d3] at i2
      rw [d3] at i3
      intro M d
      have key : ∀ r : BitVec 32,
          (((rdIdx e.a32 (stepIdx e s.df r)).toNat : Int) +
            (if s.df then -(j * e.k : Int) else (j * e.k : Int))) % M = ((rdIdx e.a32 r).toNat + d) % M := by
        intro r
        rw [hstep]
        show (_ % M + _) % M = _
        rw [Int.emod_add_emod, Int.add_assoc]
        congr 2
        simp only [d]
        have : ((j + 1 : Nat) : Int) * (e.k : Int) = (j : Int) * e.k + e.k := by
          push_cast; rw [Int.add_mul, Int.one_mul]
        rw [this]
        split <;> omega
      refine ⟨?_, ?_, i3⟩
      · rw [i1]
        by_cases hc : e.i = .stos ∨ e.i = .scas
        · rw [if_pos hc, if_pos hc, k6 hc]
        · rw [if_neg hc, if_neg hc, k5 (by cases hi : e.i <;> simp_all)]
          exact key _
      · rw [i2]
        by_cases hc : e.i = .lods
        · rw [if_pos hc, if_pos hc, k8 hc]
        · rw [if_neg hc, if_neg hc, k7 (by cases hi : e.i <;> simp_all)]
          exact key _

/-! ### What the repetitions compute -/

theorem load_byte (m : Mem) (a : BitVec 32) (k d : Nat) (hd : d < k) :
    BitVec.ofNat 8 (load m a k / 256 ^ d) = m (a + BitVec.ofNat 32 d) := by
  induction k with
  | zero => omega
  | succ k ih =>
    apply BitVec.eq_of_toNat_eq
    rw [BitVec.toNat_ofNat]
    have hb := (m (a + BitVec.ofNat 32 d)).isLt
    by_cases h : d = k
    · subst h
      rw [load, Nat.add_mul_div_right _ _ (Nat.pow_pos (by omega)), Nat.div_eq_of_lt (load_lt m a d)]
      omega
    · have hlt : d < k := by omega
      have := congrArg BitVec.toNat (ih hlt)
      rw [BitVec.toNat_ofNat] at this
      rw [load, ← this]
      have hp : (256 : Nat) ^ k = 256 ^ d * (256 * 256 ^ (k - d - 1)) := by
        rw [← Nat.pow_succ', ← Nat.pow_add]; congr 1; omega
      rw [hp, ← Nat.mul_assoc, Nat.mul_comm _ (256 ^ d), Nat.mul_assoc, Nat.add_mul_div_left _ _ (Nat.pow_pos (by omega)),
        Nat.mul_comm _ (256 * _), Nat.mul_assoc, Nat.add_mul_mod_self_left]
      

theorem step_fwd32 (e : Enc) (he : e.a32 = true) (r : BitVec 32) : stepIdx e false r = r + BitVec.ofNat 32 e.k := by
  simp [stepIdx, wrIdx, rdIdx, he]

/-- C65, REP STOS upwards with 32 bit addressing: the `n` elements from EDI on hold the accumulator,
nothing else in memory changes. -/
theorem C65_stos_fill (ok : Ok) (k : Nat) (s t : St) (hdf : s.df = false)
    (hlim : count ⟨.stos, k, true⟩ s * k ≤ 2 ^ 32) (h : repInstr ok ⟨.stos, k, true⟩ .rep s = .done t)
    (x : BitVec 32) :
    t.mem x = if (x - (s.edi + s.dst)).toNat < count ⟨.stos, k, true⟩ s * k
      then BitVec.ofNat 8 (s.eax.toNat / 256 ^ ((x - (s.edi + s.dst)).toNat % k)) else s.mem x := by
  obtain ⟨j, hj0, hi, hct, hr, hrest⟩ := C65_repeats ok _ .rep s t h
  have hj := hr rfl
  rw [← hj] at hlim ⊢
  clear h hr hj hj0 hct hrest
  induction j generalizing s with
  | zero => rw [iter] at hi; obtain rfl := Option.some.inj hi; simp
  | succ j ih =>
    rw [iter] at hi
    cases he : elem ok ⟨.stos, k, true⟩ s with
    | none => rw [he] at hi; exact absurd hi (by simp)
    | some s1 =>
      rw [he] at hi
      have e1 : s1 = { s with mem := store s.mem (s.edi + s.dst) k s.eax.toNat,
                              edi := s.edi + BitVec.ofNat 32 k } := by
        unfold elem at he
        simp only [hdf, step_fwd32, rdIdx, if_true] at he
        split at he
        · rw [hdf]; exact (Option.some.inj he).symm
        · exact absurd he (by simp)
      have hmul : (j + 1) * k = j * k + k := Nat.succ_mul j k
      have hj2 : j * k ≤ 2 ^ 32 := by omega
      have := ih (decCount ⟨.stos, k, true⟩ s1) (by rw [e1]; exact hdf) hj2 hi
      rw [e1] at this
      simp only [decCount] at this
      rw [this]
      have hx : x - (s.edi + BitVec.ofNat 32 k + s.dst) = (x - (s.edi + s.dst)) - BitVec.ofNat 32 k := by grind
      simp only [hx]
      generalize hd : x - (s.edi + s.dst) = d
      have hdl := d.isLt
      unfold store
      rw [hd, BitVec.toNat_sub, BitVec.toNat_ofNat]
      by_cases hk0 : k = 0
      · subst hk0; simp
      · by_cases hdk : d.toNat < k
        · have hnot : ¬ (2 ^ 32 - k % 2 ^ 32 + d.toNat) % 2 ^ 32 < j * k := by
            by_cases hk32 : k = 2 ^ 32
            · have : j = 0 := by
                rcases Nat.eq_zero_or_pos j with h | h
                · exact h
                · have := Nat.mul_le_mul h (Nat.le_refl k); omega
              subst this; simp
            · rw [Nat.mod_eq_of_lt (show k < 2 ^ 32 by omega), Nat.mod_eq_of_lt (by omega)]; omega
          rw [if_neg hnot, if_pos hdk, if_pos (by omega), Nat.mod_eq_of_lt hdk]
        · have hkl : k < 2 ^ 32 := by omega
          have he : (2 ^ 32 - k % 2 ^ 32 + d.toNat) % 2 ^ 32 = d.toNat - k := by
            rw [Nat.mod_eq_of_lt hkl]; omega
          rw [he, if_neg hdk]
          by_cases hc : d.toNat - k < j * k
          · rw [if_pos hc, if_pos (by omega)]
            have : d.toNat % k = (d.toNat - k) % k := Nat.mod_eq_sub_mod (by omega)
            rw [this]
          · rw [if_neg hc, if_neg (by omega)]

/-- C65, REP MOVS upwards with 32 bit addressing and regions that do not overlap: the destination
holds the source's bytes, nothing else in memory changes. -/
theorem C65_movs_copy (ok : Ok) (k : Nat) (s t : St) (hdf : s.df = false)
    (hlim : count ⟨.movs, k, true⟩ s * k ≤ 2 ^ 32)
    (hdisj : ∀ i j, i < count ⟨.movs, k, true⟩ s * k → j < count ⟨.movs, k, true⟩ s * k →
      s.esi + s.src + BitVec.ofNat 32 i ≠ s.edi + s.dst + BitVec.ofNat 32 j)
    (h : repInstr ok ⟨.movs, k, true⟩ .rep s = .done t) (x : BitVec 32) :
    t.mem x = if (x - (s.edi + s.dst)).toNat < count ⟨.movs, k, true⟩ s * k
      then s.mem (s.esi + s.src + (x - (s.edi + s.dst))) else s.mem x := by
  obtain ⟨j, hj0, hi, hct, hr, hrest⟩ := C65_repeats ok _ .rep s t h
  have hj := hr rfl
  rw [← hj] at hlim hdisj ⊢
  clear h hr hj hj0 hct hrest
  induction j generalizing s with
  | zero => rw [iter] at hi; obtain rfl := Option.some.inj hi; simp
  | succ j ih =>
    rw [iter] at hi
    cases he : elem ok ⟨.movs, k, true⟩ s with
    | none => rw [he] at hi; exact absurd hi (by simp)
    | some s1 =>
      rw [he] at hi
      have e1 : s1 = { s with mem := store s.mem (s.edi + s.dst) k (load s.mem (s.esi + s.src) k),
                              esi := s.esi + BitVec.ofNat 32 k, edi := s.edi + BitVec.ofNat 32 k } := by
        unfold elem at he
        simp only [hdf, step_fwd32, rdIdx, if_true] at he
        split at he
        · rw [hdf]; exact (Option.some.inj he).symm
        · exact absurd he (by simp)
      have hmul : (j + 1) * k = j * k + k := Nat.succ_mul j k
      -- bytes of the source are not overwritten
      have hkeep : ∀ i, i < (j + 1) * k →
          store s.mem (s.edi + s.dst) k (load s.mem (s.esi + s.src) k) (s.esi + s.src + BitVec.ofNat 32 i) =
            s.mem (s.esi + s.src + BitVec.ofNat 32 i) := by
        intro i hi'
        unfold store
        split
        · rename_i hlt
          exfalso
          apply hdisj i _ hi' (show (s.esi + s.src + BitVec.ofNat 32 i - (s.edi + s.dst)).toNat < (j + 1) * k by omega)
          simp only [BitVec.ofNat_toNat, BitVec.setWidth_eq]
          grind
        · rfl
      have := ih (decCount ⟨.movs, k, true⟩ s1) (by rw [e1]; exact hdf)
        (by
          rw [e1]
          intro i i' h1 h2 heq
          simp only [decCount] at heq
          apply hdisj (i + k) (i' + k) (by omega) (by omega)
          rw [BitVec.ofNat_add, BitVec.ofNat_add]
          grind) (by omega) hi
      rw [e1] at this
      simp only [decCount] at this
      rw [this]
      have hx : x - (s.edi + BitVec.ofNat 32 k + s.dst) = (x - (s.edi + s.dst)) - BitVec.ofNat 32 k := by grind
      have hs : s.esi + BitVec.ofNat 32 k + s.src + (x - (s.edi + s.dst) - BitVec.ofNat 32 k) =
          s.esi + s.src + (x - (s.edi + s.dst)) := by grind
      simp only [hx, hs]
      generalize hd : x - (s.edi + s.dst) = d
      have hdl := d.isLt
      have hdn : BitVec.ofNat 32 d.toNat = d := by simp
      rw [BitVec.toNat_sub, BitVec.toNat_ofNat]
      have hst : store s.mem (s.edi + s.dst) k (load s.mem (s.esi + s.src) k) x =
          if d.toNat < k then s.mem (s.esi + s.src + d) else s.mem x := by
        unfold store
        rw [hd]
        split
        · rename_i hlt; rw [load_byte _ _ _ _ hlt, hdn]
        · rfl
      rw [hst]
      by_cases hk0 : k = 0
      · subst hk0; simp
      · by_cases hdk : d.toNat < k
        · have hnot : ¬ (2 ^ 32 - k % 2 ^ 32 + d.toNat) % 2 ^ 32 < j * k := by
            by_cases hk32 : k = 2 ^ 32
            · have : j = 0 := by
                rcases Nat.eq_zero_or_pos j with h | h
                · exact h
                · have := Nat.mul_le_mul h (Nat.le_refl k); omega
              subst this; simp
            · rw [Nat.mod_eq_of_lt (show k < 2 ^ 32 by omega), Nat.mod_eq_of_lt (by omega)]; omega
          rw [if_neg hnot, if_pos hdk, if_pos (by omega)]
        · have hkl : k < 2 ^ 32 := by omega
          have he : (2 ^ 32 - k % 2 ^ 32 + d.toNat) % 2 ^ 32 = d.toNat - k := by
            rw [Nat.mod_eq_of_lt hkl]; omega
          rw [he, if_neg hdk]
          by_cases hc : d.toNat - k < j * k
          · rw [if_pos hc, if_pos (by omega)]
            have := hkeep d.toNat (by omega)
            rw [hdn] at this
            exact this
          · rw [if_neg hc, if_neg (by omega)]

theorem sub_zero_iff {w : Nat} (a b : BitVec w) : a - b = 0#w ↔ a = b := by
  constructor
  · intro h; have : a = (a - b) + b := by grind
    rw [this, h]; grind
  · rintro rfl; exact BitVec.sub_self a

/-- ZF after an element of SCAS says whether the accumulator equals the element. -/
theorem scas_zf {ok : Ok} {e : Enc} (hv : e.Valid) (hi : e.i = .scas) {s s1 : St} (h : elem ok e s = some s1) :
    (Flags.ldZf s1.fl = 0#32) ↔
      s.eax.toNat % 256 ^ e.k = load s.mem (rdIdx e.a32 s.edi + s.dst) e.k := by
  have hw : Flags.Width (8 * e.k) := by rcases hv with h | h | h <;> rw [h] <;> simp [Flags.Width]
  unfold elem at h
  simp only [hi] at h
  split at h
  · obtain rfl := Option.some.inj h
    show ((_ : BitVec (8 * e.k)).signExtend 32 = 0#32) ↔ _
    rw [Flags.sext_zero hw, sub_zero_iff]
    have hl := load_lt s.mem (rdIdx e.a32 s.edi + s.dst) e.k
    have hp : (2 : Nat) ^ (8 * e.k) = 256 ^ e.k := by rw [Nat.pow_mul]
    rw [← BitVec.toNat_inj, BitVec.toNat_ofNat, BitVec.toNat_ofNat, hp, Nat.mod_eq_of_lt hl]
  · exact absurd h (by simp)

/-- ZF after an element of CMPS says whether the two elements are equal. -/
theorem cmps_zf {ok : Ok} {e : Enc} (hv : e.Valid) (hi : e.i = .cmps) {s s1 : St} (h : elem ok e s = some s1) :
    (Flags.ldZf s1.fl = 0#32) ↔
      load s.mem (rdIdx e.a32 s.esi + s.src) e.k = load s.mem (rdIdx e.a32 s.edi + s.dst) e.k := by
  have hw : Flags.Width (8 * e.k) := by rcases hv with h | h | h <;> rw [h] <;> simp [Flags.Width]
  unfold elem at h
  simp only [hi] at h
  split at h
  · obtain rfl := Option.some.inj h
    show ((_ : BitVec (8 * e.k)).signExtend 32 = 0#32) ↔ _
    rw [Flags.sext_zero hw, sub_zero_iff]
    have hl := load_lt s.mem (rdIdx e.a32 s.edi + s.dst) e.k
    have hl2 := load_lt s.mem (rdIdx e.a32 s.esi + s.src) e.k
    have hp : (2 : Nat) ^ (8 * e.k) = 256 ^ e.k := by rw [Nat.pow_mul]
    rw [← BitVec.toNat_inj, BitVec.toNat_ofNat, BitVec.toNat_ofNat, hp, Nat.mod_eq_of_lt hl, Nat.mod_eq_of_lt hl2]
  · exact absurd h (by simp)

theorem iter_succ_last (ok : Ok) (e : Enc) (j : Nat) (s t : St) (h : iter ok e (j + 1) s = some t) :
    ∃ u u1, iter ok e j s = some u ∧ elem ok e u = some u1 ∧ t = decCount e u1 := by
  induction j generalizing s with
  | zero =>
    rw [iter] at h
    cases he : elem ok e s with
    | none => rw [he] at h; exact absurd h (by simp)
    | some s1 => rw [he] at h; simp only [iter] at h; exact ⟨s, s1, rfl, he, (Option.some.inj h).symm⟩
  | succ j ih =>
    rw [iter] at h
    cases he : elem ok e s with
    | none => rw [he] at h; exact absurd h (by simp)
    | some s1 =>
      rw [he] at h
      obtain ⟨u, u1, h1, h2, h3⟩ := ih (decCount e s1) h
      exact ⟨u, u1, by rw [iter, he]; exact h1, h2, h3⟩

/-- SCAS upwards with 32 bit addressing: where the `j`-th element is. -/
theorem iter_scas (ok : Ok) (k j : Nat) (s t : St) (hdf : s.df = false)
    (h : iter ok ⟨.scas, k, true⟩ j s = some t) :
    t.edi = s.edi + BitVec.ofNat 32 (j * k) ∧ t.mem = s.mem ∧ t.eax = s.eax ∧ t.dst = s.dst ∧ t.df = false := by
  induction j generalizing s with
  | zero => rw [iter] at h; obtain rfl := Option.some.inj h; simp [hdf]
  | succ j ih =>
    rw [iter] at h
    cases he : elem ok ⟨.scas, k, true⟩ s with
    | none => rw [he] at h; exact absurd h (by simp)
    | some s1 =>
      rw [he] at h
      obtain ⟨k1, k2, k3, k4, k5, k6, k7, k8, k9, k10, _⟩ := elem_keeps he
      obtain ⟨i1, i2, i3, i4, i5⟩ := ih (decCount ⟨.scas, k, true⟩ s1) (k2.trans hdf) h
      refine ⟨?_, i2.trans (k10 (by simp) (by simp)), i3.trans (k9 (by simp)), i4.trans k4, i5⟩
      rw [i1]
      show s1.edi + _ = _
      rw [k7 (by simp), hdf, step_fwd32 _ rfl, Nat.succ_mul, Nat.add_comm (j * k) k, BitVec.ofNat_add]
      show s.edi + BitVec.ofNat 32 k + _ = _
      grind

/-- C65, REPNE SCAS upwards with 32 bit addressing (memchr/strlen): it stops just after the first
element equal to the accumulator, or after `count` elements if there is none; ECX and EDI say where,
and memory is untouched. -/
theorem C65_scas_finds_first (ok : Ok) (k : Nat) (hv : k = 1 ∨ k = 2 ∨ k = 4) (s t : St) (hdf : s.df = false)
    (hpos : 0 < count ⟨.scas, k, true⟩ s) (h : repInstr ok ⟨.scas, k, true⟩ .repnz s = .done t) :
    let at_ := fun i : Nat => load s.mem (s.edi + s.dst + BitVec.ofNat 32 (i * k)) k
    let acc := s.eax.toNat % 256 ^ k
    ∃ j, j < count ⟨.scas, k, true⟩ s ∧ (∀ i, i < j → at_ i ≠ acc) ∧
      (at_ j = acc ∨ j + 1 = count ⟨.scas, k, true⟩ s) ∧
      t.edi = s.edi + BitVec.ofNat 32 ((j + 1) * k) ∧
      count ⟨.scas, k, true⟩ t = count ⟨.scas, k, true⟩ s - (j + 1) ∧
      ((Flags.ldZf t.fl = 0#32) ↔ at_ j = acc) ∧ t.mem = s.mem := by
  intro at_ acc
  obtain ⟨j, hj, hi, hc, _, hlt, hp0, hall⟩ := C65_repeats ok _ .repnz s t h
  have hzf : ∀ i u, iter ok ⟨.scas, k, true⟩ (i + 1) s = some u → ((Flags.ldZf u.fl = 0#32) ↔ at_ i = acc) := by
    intro i u hu
    obtain ⟨v, v1, h1, h2, rfl⟩ := iter_succ_last ok _ i s u hu
    obtain ⟨a1, a2, a3, a4, _⟩ := iter_scas ok k i s v hdf h1
    have := scas_zf (e := ⟨.scas, k, true⟩) hv rfl h2
    show (Flags.ldZf v1.fl = 0#32) ↔ _
    rw [this]
    show v.eax.toNat % 256 ^ k = load v.mem (v.edi + v.dst) k ↔ _
    rw [a1, a2, a3, a4, show s.edi + BitVec.ofNat 32 (i * k) + s.dst = s.edi + s.dst + BitVec.ofNat 32 (i * k) by grind]
    exact eq_comm
  cases j with
  | zero => have := hp0 hpos; omega
  | succ j =>
    refine ⟨j, by omega, ?_, ?_, (iter_scas ok k (j + 1) s t hdf hi).1, hc, hzf j t hi,
      (iter_scas ok k (j + 1) s t hdf hi).2.1⟩
    · intro i hij heq
      obtain ⟨u, hu, hg⟩ := hall (i + 1) (by omega) (by omega)
      have := (hzf i u hu).mpr heq
      simp [goOn, this] at hg
    · by_cases hfull : j + 1 = count ⟨.scas, k, true⟩ s
      · exact Or.inr hfull
      · left
        have hg := hlt (by omega)
        simp only [goOn, bne_eq_false_iff_eq] at hg
        exact (hzf j t hi).mp hg

/-- CMPS upwards with 32 bit addressing: where the `j`-th elements are. -/
theorem iter_cmps (ok : Ok) (k j : Nat) (s t : St) (hdf : s.df = false)
    (h : iter ok ⟨.cmps, k, true⟩ j s = some t) :
    t.edi = s.edi + BitVec.ofNat 32 (j * k) ∧ t.esi = s.esi + BitVec.ofNat 32 (j * k) ∧ t.mem = s.mem ∧
      t.src = s.src ∧ t.dst = s.dst ∧ t.df = false := by
  induction j generalizing s with
  | zero => rw [iter] at h; obtain rfl := Option.some.inj h; simp [hdf]
  | succ j ih =>
    rw [iter] at h
    cases he : elem ok ⟨.cmps, k, true⟩ s with
    | none => rw [he] at h; exact absurd h (by simp)
    | some s1 =>
      rw [he] at h
      obtain ⟨k1, k2, k3, k4, k5, k6, k7, k8, k9, k10, _⟩ := elem_keeps he
      obtain ⟨i1, i2, i3, i4, i5, i6⟩ := ih (decCount ⟨.cmps, k, true⟩ s1) (k2.trans hdf) h
      refine ⟨?_, ?_, i3.trans (k10 (by simp) (by simp)), i4.trans k3, i5.trans k4, i6⟩
      · rw [i1]
        show s1.edi + _ = _
        rw [k7 (by simp), hdf, step_fwd32 _ rfl, Nat.succ_mul, Nat.add_comm (j * k) k, BitVec.ofNat_add]
        show s.edi + BitVec.ofNat 32 k + _ = _
        grind
      · rw [i2]
        show s1.esi + _ = _
        rw [k5 (by simp), hdf, step_fwd32 _ rfl, Nat.succ_mul, Nat.add_comm (j * k) k, BitVec.ofNat_add]
        show s.esi + BitVec.ofNat 32 k + _ = _
        grind

/-- C65, REPE CMPS upwards with 32 bit addressing (memcmp): it stops just after the first pair of
elements that differ, or after `count` elements if there is none; ECX, ESI and EDI say where, ZF says
whether the last pair was equal, and memory is untouched. -/
theorem C65_cmps_finds_first_difference (ok : Ok) (k : Nat) (hv : k = 1 ∨ k = 2 ∨ k = 4) (s t : St)
    (hdf : s.df = false) (hpos : 0 < count ⟨.cmps, k, true⟩ s)
    (h : repInstr ok ⟨.cmps, k, true⟩ .repz s = .done t) :
    let at1 := fun i : Nat => load s.mem (s.esi + s.src + BitVec.ofNat 32 (i * k)) k
    let at2 := fun i : Nat => load s.mem (s.edi + s.dst + BitVec.ofNat 32 (i * k)) k
    ∃ j, j < count ⟨.cmps, k, true⟩ s ∧ (∀ i, i < j → at1 i = at2 i) ∧
      (at1 j ≠ at2 j ∨ j + 1 = count ⟨.cmps, k, true⟩ s) ∧
      t.edi = s.edi + BitVec.ofNat 32 ((j + 1) * k) ∧ t.esi = s.esi + BitVec.ofNat 32 ((j + 1) * k) ∧
      count ⟨.cmps, k, true⟩ t = count ⟨.cmps, k, true⟩ s - (j + 1) ∧
      ((Flags.ldZf t.fl = 0#32) ↔ at1 j = at2 j) ∧ t.mem = s.mem := by
  intro at1 at2
  obtain ⟨j, hj, hi, hc, _, hlt, hp0, hall⟩ := C65_repeats ok _ .repz s t h
  have hzf : ∀ i u, iter ok ⟨.cmps, k, true⟩ (i + 1) s = some u → ((Flags.ldZf u.fl = 0#32) ↔ at1 i = at2 i) := by
    intro i u hu
    obtain ⟨v, v1, h1, h2, rfl⟩ := iter_succ_last ok _ i s u hu
    obtain ⟨a1, a2, a3, a4, a5, _⟩ := iter_cmps ok k i s v hdf h1
    have := cmps_zf (e := ⟨.cmps, k, true⟩) hv rfl h2
    show (Flags.ldZf v1.fl = 0#32) ↔ _
    rw [this]
    show load v.mem (v.esi + v.src) k = load v.mem (v.edi + v.dst) k ↔ _
    rw [a1, a2, a3, a4, a5,
      show s.edi + BitVec.ofNat 32 (i * k) + s.dst = s.edi + s.dst + BitVec.ofNat 32 (i * k) by grind,
      show s.esi + BitVec.ofNat 32 (i * k) + s.src = s.esi + s.src + BitVec.ofNat 32 (i * k) by grind]
  cases j with
  | zero => have := hp0 hpos; omega
  | succ j =>
    refine ⟨j, by omega, ?_, ?_, (iter_cmps ok k (j + 1) s t hdf hi).1, (iter_cmps ok k (j + 1) s t hdf hi).2.1, hc,
      hzf j t hi, (iter_cmps ok k (j + 1) s t hdf hi).2.2.1⟩
    · intro i hij
      obtain ⟨u, hu, hg⟩ := hall (i + 1) (by omega) (by omega)
      simp only [goOn, beq_iff_eq] at hg
      exact (hzf i u hu).mp hg
    · by_cases hfull : j + 1 = count ⟨.cmps, k, true⟩ s
      · exact Or.inr hfull
      · left
        have hg := hlt (by omega)
        intro heq
        simp [goOn, (hzf j t hi).mpr heq] at hg

-- Non-trivial cases: a fill and a search.
def s0 : St := { mem := fun a => if a = 0x102#32 then 0x41#8 else 0#8, esi := 0#32, edi := 0x100#32,
                 ecx := 5#32, eax := 0x41#32, df := false, src := 0#32, dst := 0#32, fl := ⟨2#32, 0x100#32, 0#32⟩ }
example : ∃ t, repInstr (fun _ _ _ => true) ⟨.scas, 1, true⟩ .repnz s0 = .done t ∧ t.edi = 0x103#32 ∧ t.ecx = 2#32 :=
  ⟨_, rfl, by decide +kernel, by decide +kernel⟩
example : ∃ t, repInstr (fun _ _ _ => true) ⟨.stos, 1, true⟩ .rep s0 = .done t ∧ t.mem 0x104#32 = 0x41#8 :=
  ⟨_, rfl, by decide +kernel⟩

example : ∃ t, repInstr (fun _ _ _ => true) ⟨.cmps, 1, true⟩ .repz { s0 with esi := 0x200#32 } = .done t ∧
    t.edi = 0x103#32 ∧ t.ecx = 2#32 := ⟨_, rfl, by decide +kernel, by decide +kernel⟩
example : ∃ t, repInstr (fun _ _ _ => true) ⟨.movs, 1, true⟩ .rep { s0 with esi := 0x102#32, edi := 0x200#32 } = .done t ∧
    t.mem 0x200#32 = 0x41#8 := ⟨_, rfl, by decide +kernel⟩
example : attempts ⟨.stos, 1, true⟩ .rep [fun a _ _ => a.ult 0x102#32, fun _ _ _ => true] s0 ≠ .fault s0 ∧
    ∃ t, repInstr (fun a _ _ => a.ult 0x102#32) ⟨.stos, 1, true⟩ .rep s0 = .fault t ∧ t.ecx = 3#32 := by
  refine ⟨?_, _, rfl, by decide +kernel⟩
  intro h
  have : (∃ t, attempts ⟨.stos, 1, true⟩ .rep [fun a _ _ => a.ult 0x102#32, fun _ _ _ => true] s0 = .done t) := ⟨_, rfl⟩
  obtain ⟨t, ht⟩ := this
  rw [ht] at h
  exact absurd h (by simp)

end Verif.StringOps
