import Verif.Model.SetFlags
import Verif.Lemmas.Bits
/-
C52: cpu_set_flags accepts exactly the documented values, rejects the others without effect, and the
last accepted value is what the user sees from then on.
-/
namespace Verif.SetFlags

/-- Specification: the options a user chooses (include/lib86cpu.hpp 43-48). -/
structure Options where
  syn : Style
  debugger : Bool
  endOnHlt : Bool
  deriving DecidableEq, Repr

/-- Specification: the documented value for these options, as a number. -/
def Options.value (o : Options) : Nat :=
  (match o.syn with | .att => 0 | .masm => 1 | .intel => 2) +
    (if o.debugger then 2048 else 0) + (if o.endOnHlt then 4096 else 0)

/-- What a user can observe of the options: how code is printed, whether a run starts with the
debugger (translate.cpp 1636), what a HLT translated now does, what every HLT already translated
does. -/
structure Shows (c : Cpu) (o : Options) : Prop where
  syn : c.formatter = o.syn
  debugger : c.flags.getLsbD 11 = o.debugger
  newHlt : c.flags.getLsbD 12 = o.endOnHlt
  oldHlt : ∀ b ∈ c.hltBlocks, b = o.endOnHlt

/-- Specification: the options in force after a history, starting from the default ones. -/
def inForce (o : Options) : List Op → Options
  | [] => o
  | .set f :: l =>
    match [Options.mk .att false false, ⟨.att, false, true⟩, ⟨.att, true, false⟩, ⟨.att, true, true⟩,
        ⟨.masm, false, false⟩, ⟨.masm, false, true⟩, ⟨.masm, true, false⟩, ⟨.masm, true, true⟩,
        ⟨.intel, false, false⟩, ⟨.intel, false, true⟩, ⟨.intel, true, false⟩, ⟨.intel, true, true⟩].find?
        (fun o' => o'.value == f.toNat) with
    | some o' => inForce o' l
    | none => inForce o l
  | _ :: l => inForce o l

/-- The value as bits. -/
def Options.bv (o : Options) : BitVec 32 := BitVec.ofNat 32 o.value

theorem bv_toNat (o : Options) : o.bv.toNat = o.value := by
  obtain ⟨s, d, h⟩ := o
  cases s <;> cases d <;> cases h <;> rfl

theorem bv_ok (o : Options) : o.bv &&& ~~~userMask = 0#32 ∧
    (o.bv &&& 7#32 = 0#32 ∨ o.bv &&& 7#32 = 2#32 ∨ o.bv &&& 7#32 = 1#32) := by
  obtain ⟨s, d, h⟩ := o
  cases s <;> cases d <;> cases h <;> decide

theorem split_bits (f : BitVec 32) (h : f &&& ~~~userMask = 0#32) :
    f = (f &&& 7#32) ||| (f &&& 0x800#32) ||| (f &&& 0x1000#32) := by
  have hm : f = f &&& userMask := by
    have : f = (f &&& userMask) ||| (f &&& ~~~userMask) := by
      rw [← BitVec.and_or_distrib_left, show userMask ||| ~~~userMask = BitVec.allOnes 32 from by decide, BitVec.and_allOnes]
    rw [h] at this
    simpa using this
  have : f &&& userMask = (f &&& 7#32) ||| (f &&& 0x800#32) ||| (f &&& 0x1000#32) := by
    simp only [userMask, BitVec.and_or_distrib_left]
  rw [← this, ← hm]

theorem and_pow (f : BitVec 32) (i : Nat) (_ : i < 32) :
    f &&& BitVec.twoPow 32 i = if f.getLsbD i then BitVec.twoPow 32 i else 0#32 := by
  rw [BitVec.and_twoPow]

theorem ok_bv (f : BitVec 32) (h : f &&& ~~~userMask = 0#32)
    (h7 : f &&& 7#32 = 0#32 ∨ f &&& 7#32 = 2#32 ∨ f &&& 7#32 = 1#32) : ∃ o : Options, f = o.bv := by
  have hs := split_bits f h
  have h8 := and_pow f 11 (by omega)
  have h10 := and_pow f 12 (by omega)
  rw [show BitVec.twoPow 32 11 = 0x800#32 from rfl] at h8
  rw [show BitVec.twoPow 32 12 = 0x1000#32 from rfl] at h10
  rw [h8, h10] at hs
  generalize f.getLsbD 11 = d at hs
  generalize f.getLsbD 12 = a at hs
  rcases h7 with h7 | h7 | h7 <;> rw [h7] at hs
  · exact ⟨⟨.att, d, a⟩, by rw [hs]; cases d <;> cases a <;> rfl⟩
  · exact ⟨⟨.intel, d, a⟩, by rw [hs]; cases d <;> cases a <;> rfl⟩
  · exact ⟨⟨.masm, d, a⟩, by rw [hs]; cases d <;> cases a <;> rfl⟩

theorem accepted_iff (c : Cpu) (f : BitVec 32) : (setFlags c f).2 = true ↔ ∃ o : Options, f = o.bv := by
  constructor
  · intro h
    unfold setFlags at h
    split at h
    · cases h
    · split at h
      · exact ok_bv f (by rename_i h1 _; exact Classical.not_not.mp h1) (by assumption)
      · cases h
  · rintro ⟨o, rfl⟩
    obtain ⟨h1, h2⟩ := bv_ok o
    unfold setFlags
    rw [if_neg (fun hn => hn h1), if_pos h2]

/-- C52: success exactly for the documented values. -/
theorem C52_accepts_documented (c : Cpu) (f : BitVec 32) :
    (setFlags c f).2 = true ↔ ∃ o : Options, f.toNat = o.value := by
  rw [accepted_iff]
  constructor
  · rintro ⟨o, rfl⟩; exact ⟨o, bv_toNat o⟩
  · rintro ⟨o, h⟩; exact ⟨o, BitVec.eq_of_toNat_eq (by rw [h, bv_toNat])⟩

/-- C52: a rejected call has no effect. -/
theorem C52_rejected_no_effect (c : Cpu) (f : BitVec 32) (h : ¬∃ o : Options, f.toNat = o.value) :
    setFlags c f = (c, false) := by
  have h2 : (setFlags c f).2 ≠ true := fun hh => h ((C52_accepts_documented c f).mp hh)
  unfold setFlags at h2 ⊢
  split
  · rfl
  · split
    · rename_i h1 h3; rw [if_neg h1, if_pos h3] at h2; exact absurd rfl h2
    · rfl

theorem setFlags_bv (c : Cpu) (o : Options) : setFlags c o.bv =
    ({ flags := (c.flags &&& ~~~userMask) ||| o.bv, formatter := o.syn,
       hltBlocks := if c.flags.getLsbD 12 ≠ o.endOnHlt then [] else c.hltBlocks }, true) := by
  obtain ⟨h1, h2⟩ := bv_ok o
  unfold setFlags
  rw [if_neg (fun hn => hn h1), if_pos h2]
  have hst : styleOf (((c.flags &&& ~~~userMask) ||| o.bv) &&& 7#32) = o.syn := by
    have : ((c.flags &&& ~~~userMask) ||| o.bv) &&& 7#32 = o.bv &&& 7#32 := by
      rw [BitVec.and_comm, BitVec.and_or_distrib_left]
      have : 7#32 &&& (c.flags &&& ~~~userMask) = 0#32 := by
        rw [BitVec.and_comm, BitVec.and_assoc]
        have : ~~~userMask &&& 7#32 = 0#32 := by decide
        rw [this]; simp
      rw [this, BitVec.and_comm]; simp
    rw [this]
    obtain ⟨s, d, h⟩ := o
    cases s <;> cases d <;> cases h <;> decide
  have hne : (c.flags &&& 0x1000#32 ≠ o.bv &&& 0x1000#32) ↔ (c.flags.getLsbD 12 ≠ o.endOnHlt) := by
    have e1 := and_pow c.flags 12 (by omega)
    have e2 : o.bv &&& 0x1000#32 = if o.endOnHlt then 0x1000#32 else 0#32 := by
      obtain ⟨s, d, h⟩ := o
      cases s <;> cases d <;> cases h <;> decide
    rw [show BitVec.twoPow 32 12 = 0x1000#32 from rfl] at e1
    rw [e1, e2]
    cases c.flags.getLsbD 12 <;> cases o.endOnHlt <;> simp
  by_cases hc : c.flags &&& 0x1000#32 ≠ o.bv &&& 0x1000#32
  · simp only [if_pos hc, if_pos (hne.mp hc), hst]
  · simp only [if_neg hc, if_neg (fun h => hc (hne.mpr h)), hst]

theorem user_high (i : Nat) (hi : i < 32) (h : 3 ≤ i) (h11 : i ≠ 11) (h12 : i ≠ 12) :
    userMask.getLsbD i = false := by
  have : ∀ i : Fin 32, 3 ≤ i.val → i.val ≠ 11 → i.val ≠ 12 → userMask.getLsbD i.val = false := by decide
  exact this ⟨i, hi⟩ h h11 h12

theorem bv_high (o : Options) (i : Nat) (hi : i < 32) (h : 3 ≤ i) (h11 : i ≠ 11) (h12 : i ≠ 12) :
    o.bv.getLsbD i = false := by
  have : ∀ i : Fin 32, 3 ≤ i.val → i.val ≠ 11 → i.val ≠ 12 → o.bv.getLsbD i.val = false := by
    obtain ⟨s, d, h⟩ := o
    cases s <;> cases d <;> cases h <;> decide
  exact this ⟨i, hi⟩ h h11 h12

/-- C52: an accepted call does not touch the library's own bits (timeout, single step, ...). -/
theorem C52_internal_bits_kept (c : Cpu) (f : BitVec 32) (i : Nat) (h : 3 ≤ i) (h11 : i ≠ 11) (h12 : i ≠ 12) :
    (setFlags c f).1.flags.getLsbD i = c.flags.getLsbD i := by
  by_cases ho : ∃ o : Options, f = o.bv
  · obtain ⟨o, rfl⟩ := ho
    rw [setFlags_bv]
    by_cases hi : i < 32
    · simp only [BitVec.getLsbD_or, BitVec.getLsbD_and, BitVec.getLsbD_not, user_high i hi h h11 h12, bv_high o i hi h h11 h12, hi]
      simp
    · rw [BitVec.getLsbD_of_ge _ _ (by omega), BitVec.getLsbD_of_ge _ _ (by omega)]
  · rw [C52_rejected_no_effect]
    rintro ⟨o, h⟩
    exact ho ⟨o, BitVec.eq_of_toNat_eq (by rw [h, bv_toNat])⟩

/-- The options and the stored bits agree, and the cached code agrees with both. -/
structure Inv (c : Cpu) (o : Options) : Prop where
  low : c.flags &&& userMask = o.bv
  fmt : c.formatter = o.syn
  blocks : ∀ b ∈ c.hltBlocks, b = o.endOnHlt

theorem bv_bit11 (o : Options) : o.bv.getLsbD 11 = o.debugger := by
  obtain ⟨s, d, h⟩ := o
  cases s <;> cases d <;> cases h <;> decide

theorem bv_bit12 (o : Options) : o.bv.getLsbD 12 = o.endOnHlt := by
  obtain ⟨s, d, h⟩ := o
  cases s <;> cases d <;> cases h <;> decide

theorem Inv.bit11 {c : Cpu} {o : Options} (h : Inv c o) : c.flags.getLsbD 11 = o.debugger := by
  rw [← bv_bit11, ← h.low, BitVec.getLsbD_and]
  have : userMask.getLsbD 11 = true := by decide
  simp [this]

theorem Inv.bit12 {c : Cpu} {o : Options} (h : Inv c o) : c.flags.getLsbD 12 = o.endOnHlt := by
  rw [← bv_bit12, ← h.low, BitVec.getLsbD_and]
  have : userMask.getLsbD 12 = true := by decide
  simp [this]

theorem Inv.shows {c : Cpu} {o : Options} (h : Inv c o) : Shows c o := ⟨h.fmt, h.bit11, h.bit12, h.blocks⟩

theorem inv_set {c : Cpu} {o : Options} (h : Inv c o) (o' : Options) : Inv (setFlags c o'.bv).1 o' := by
  rw [setFlags_bv]
  refine ⟨?_, rfl, ?_⟩
  · dsimp only
    rw [BitVec.and_comm, BitVec.and_or_distrib_left]
    have h1 : userMask &&& (c.flags &&& ~~~userMask) = 0#32 := by
      rw [BitVec.and_comm, BitVec.and_assoc]; simp
    have h2 : userMask &&& o'.bv = o'.bv := by
      obtain ⟨s, d, h⟩ := o'
      cases s <;> cases d <;> cases h <;> decide
    rw [h1, h2]; simp
  · dsimp only
    intro b hb
    split at hb
    · cases hb
    · rename_i hn
      rw [h.blocks b hb, ← h.bit12]
      exact Classical.not_not.mp hn

theorem mem_evict (keep : Nat → Bool) (l : List Bool) : ∀ n b, b ∈ evict keep l n → b ∈ l := by
  induction l with
  | nil => intro n b hb; exact hb
  | cons a l ih =>
    intro n b hb
    unfold evict at hb
    split at hb
    · rcases List.mem_cons.mp hb with rfl | hb
      · exact List.mem_cons_self
      · exact List.mem_cons_of_mem _ (ih _ _ hb)
    · exact List.mem_cons_of_mem _ (ih _ _ hb)

theorem find_bv (f : BitVec 32) (l : List Options) :
    l.find? (fun o' => o'.value == f.toNat) = none → ∀ o ∈ l, f ≠ o.bv := by
  intro h o ho hf
  have := List.find?_eq_none.mp h o ho
  rw [hf, bv_toNat] at this
  simp at this

theorem inv_step {c : Cpu} {o : Options} (h : Inv c o) (op : Op) : Inv (step c op) (inForce o [op]) := by
  have or_low : ∀ k : BitVec 32, k &&& userMask = 0#32 → (c.flags ||| k) &&& userMask = o.bv := by
    intro k hk
    rw [BitVec.and_comm, BitVec.and_or_distrib_left, BitVec.and_comm userMask k, hk, BitVec.and_comm, h.low]
    simp
  have and_low : ∀ k : BitVec 32, k &&& userMask = userMask → (c.flags &&& k) &&& userMask = o.bv := by
    intro k hk
    rw [BitVec.and_assoc, hk, h.low]
  cases op with
  | set f =>
    unfold inForce
    simp only [step]
    split
    · rename_i o' hf
      have := List.find?_some hf
      have hv : f = o'.bv := BitVec.eq_of_toNat_eq (by rw [bv_toNat]; simpa using (beq_iff_eq.mp this).symm)
      rw [hv]
      exact inv_set h o'
    · rename_i hf
      have hne := find_bv f _ hf
      rw [C52_rejected_no_effect]
      · exact h
      · rintro ⟨o', hv⟩
        refine hne o' ?_ (BitVec.eq_of_toNat_eq (by rw [hv, bv_toNat]))
        obtain ⟨s, d, a⟩ := o'
        cases s <;> cases d <;> cases a <;> decide
  | translateHlt =>
    refine ⟨h.low, h.fmt, ?_⟩
    intro b hb
    simp only [step, List.mem_cons] at hb
    rcases hb with rfl | hb
    · show _ = o.endOnHlt
      rw [← h.bit12]
      have e := and_pow c.flags 12 (by omega)
      rw [show BitVec.twoPow 32 12 = 0x1000#32 from rfl] at e
      rw [e]
      cases c.flags.getLsbD 12 <;> decide
    · exact h.blocks b hb
  | evict keep => exact ⟨h.low, h.fmt, fun b hb => h.blocks b (mem_evict keep _ _ _ hb)⟩
  | raiseTimeout => exact ⟨or_low _ (by decide), h.fmt, h.blocks⟩
  | raiseOne => exact ⟨or_low _ (by decide), h.fmt, h.blocks⟩
  | raiseStep => exact ⟨or_low _ (by decide), h.fmt, h.blocks⟩
  | clearOne => exact ⟨and_low _ (by decide), h.fmt, h.blocks⟩
  | clearStep => exact ⟨and_low _ (by decide), h.fmt, h.blocks⟩
  | load => exact ⟨and_low _ (by decide), h.fmt, by intro b hb; cases hb⟩

theorem inForce_cons (o : Options) (op : Op) (l : List Op) : inForce o (op :: l) = inForce (inForce o [op]) l := by
  cases op with
  | set f => simp only [inForce]; split <;> rfl
  | _ => rfl

/-- C52: after any history of calls, translations, evictions, runs and restores, the user observes
exactly the options of the last accepted call (the defaults if there was none): printing, debugger,
and the behaviour of every HLT, including those translated before the call. -/
theorem C52_last_accepted_in_force (l : List Op) : Shows (run create l) (inForce ⟨.att, false, false⟩ l) := by
  suffices h : ∀ (l : List Op) (c : Cpu) (o : Options), Inv c o → Inv (run c l) (inForce o l) from
    (h l create ⟨.att, false, false⟩ ⟨by decide, rfl, by intro b hb; cases hb⟩).shows
  intro l
  induction l with
  | nil => intro c o h; exact h
  | cons op l ih =>
    intro c o h
    rw [inForce_cons]
    exact ih _ _ (inv_step h op)

/-- A history with an accepted, a rejected and a changing call: the HLT translated under the first
option is gone after the second, and internal bits survive. -/
example : let c := run create [.set 0x1801#32, .translateHlt, .raiseTimeout, .set 0x1003#32, .set 0x2#32, .translateHlt]
    c.flags = 0xA#32 ∧ c.hltBlocks = [false] ∧ c.formatter = .intel := by decide

example : setFlags create 0x1802#32 = (⟨0x1802#32, .intel, []⟩, true) := by decide
example : ¬∃ o : Options, (0x3#32).toNat = o.value := by
  rintro ⟨⟨s, d, a⟩, h⟩
  revert h
  cases s <;> cases d <;> cases a <;> decide

end Verif.SetFlags
