import Verif.Lemmas.Oks
import Verif.Spec.Priv
/- The helpers of segmentation leave the system registers alone. -/
namespace Verif.Priv
open Seg Seg.Spec

/-- The system registers, and the flags selected by `M`. -/
def sysOf (M : BitVec 32) (r : Regs) :=
  (r.cr0, r.cr2, r.cr3, r.cr4, (r.gdtBase, r.gdtLimit, r.idtBase, r.idtLimit), (r.ldtr, r.tr, r.dr7), r.eflags &&& M)

/-- The system registers are `t`. -/
def KS (M : BitVec 32) (t : Regs) (r : Regs) : Prop := sysOf M r = sysOf M t

theorem ks_writeSeg (M : BitVec 32) (t : Regs) (i : SR) (sel : BitVec 16) (b l f : BitVec 32) (r : Regs) (h : KS M t r) :
    KS M t (writeSeg i sel b l f r) := by cases i <;> exact h

theorem ks_loadDesc (M : BitVec 32) (t : Regs) (i : SR) (sel : BitVec 16) (d : BitVec 64) : Keeps (KS M t) (loadDesc i sel d) :=
  keeps_modR fun r h => ks_writeSeg M t i _ _ _ _ r h

theorem ks_movSelPe (M : BitVec 32) (t : Regs) (acc : Acc) (i : SR) (sel : BitVec 16) : Keeps (KS M t) (movSelPe acc i sel) := by
  cases i <;> unfold movSelPe <;> keepsAll <;>
    first | exact ks_loadDesc .. | exact keeps_modR fun r h => ks_writeSeg _ _ _ _ _ _ _ r h

theorem ks_validateSeg (M : BitVec 32) (t : Regs) (i : SR) (r : Regs) (h : KS M t r) : KS M t (validateSeg i r) := by
  unfold validateSeg
  simp only
  split
  · exact ks_writeSeg M t i _ _ _ _ r h
  · exact h

theorem ks_writeEflags (M : BitVec 32) (t : Regs) (e m : BitVec 32) (r : Regs) (hm : m &&& M = 0#32) (h1 : M[1] = false)
    (h : KS M t r) : KS M t (writeEflags e m r) := by
  have key : (((r.eflags &&& ~~~m) ||| (e &&& m)) ||| 2#32) &&& M = r.eflags &&& M := by
    apply BitVec.eq_of_getLsbD_eq
    intro i hi
    have hb : (m.getLsbD i && M.getLsbD i) = false := by
      rw [← BitVec.getLsbD_and, hm]; simp
    rw [BitVec.getLsbD_and, BitVec.getLsbD_or, BitVec.getLsbD_or, BitVec.getLsbD_and, BitVec.getLsbD_and, BitVec.getLsbD_and,
      BitVec.getLsbD_not]
    by_cases h2 : i = 1
    · subst h2
      rw [show M.getLsbD 1 = false from h1]; simp
    · have : (2#32).getLsbD i = false := by
        rw [show (2#32) = BitVec.twoPow 32 1 from rfl, BitVec.getLsbD_twoPow]
        simp; omega
      rw [this]
      cases hM : M.getLsbD i with
      | false => simp
      | true =>
        rw [hM] at hb
        have : m.getLsbD i = false := by simpa using hb
        rw [this]; simp [hi]
  unfold KS sysOf at h ⊢
  unfold writeEflags
  dsimp only at h ⊢
  rw [key]; exact h

theorem ks_retPe (M : BitVec 32) (t : Regs) (acc : Acc) (k : Nat) (eip : BitVec 32) (cs : BitVec 16) (sp : BitVec 32)
    (e : Option (BitVec 32 × BitVec 32)) (h1 : M[1] = false) (he : ∀ v m, e = some (v, m) → m &&& M = 0#32) :
    Keeps (KS M t) (retPe acc k eip cs sp e) := by
  unfold retPe
  keepsAll
  all_goals first
    | exact ks_loadDesc ..
    | (refine keeps_modR fun r h => ?_
       with_reducible apply ks_writeEflags _ _ _ _ _ (he _ _ rfl) h1
       exact h)
    | (refine keeps_modR fun r h => ?_
       simp only
       with_reducible refine ks_validateSeg _ _ _ _ (ks_validateSeg _ _ _ _ (ks_validateSeg _ _ _ _ (ks_validateSeg _ _ _ _ ?_)))
       exact h)
    | exact keeps_modR fun r h => h

theorem ks_lretPe (M : BitVec 32) (t : Regs) (acc : Acc) (k : Nat) (h1 : M[1] = false) : Keeps (KS M t) (lretPe acc k) := by
  unfold lretPe; keepsAll; exact ks_retPe M t acc k _ _ _ none h1 (by intro v m h; cases h)

theorem ks_ljmpPe (M : BitVec 32) (t : Regs) (acc : Acc) (sel : BitVec 16) (k : Nat) (j : BitVec 32) :
    Keeps (KS M t) (ljmpPe acc sel k j) := by
  unfold ljmpPe; keepsAll <;> first | exact ks_loadDesc .. | exact keeps_modR fun r h => h

theorem ks_lcallPe (M : BitVec 32) (t : Regs) (acc : Acc) (sel : BitVec 16) (c : BitVec 32) (k : Nat) (ret : BitVec 32) :
    Keeps (KS M t) (lcallPe acc sel c k ret) := by
  unfold lcallPe; keepsAll <;> first | exact ks_loadDesc .. | exact keeps_modR fun r h => h

theorem ks_farReal (M : BitVec 32) (t : Regs) (sel : BitVec 16) (eip : BitVec 32) : Keeps (KS M t) (farReal sel eip) :=
  keeps_modR fun r h => h

theorem ks_farCallReal (M : BitVec 32) (t : Regs) (acc : Acc) (sel : BitVec 16) (k : Nat) (eip ret : BitVec 32) :
    Keeps (KS M t) (farCallReal acc sel k eip ret) := by
  unfold farCallReal; keepsAll <;> first | exact ks_farReal .. | exact keeps_modR fun r h => h

theorem ks_farRetReal (M : BitVec 32) (t : Regs) (acc : Acc) (k : Nat) : Keeps (KS M t) (farRetReal acc k) := by
  unfold farRetReal; keepsAll <;> first | exact ks_farReal .. | exact keeps_modR fun r h => h

theorem ks_movSelReal (M : BitVec 32) (t : Regs) (i : SR) (sel : BitVec 16) : Keeps (KS M t) (movSelReal i sel) := by
  refine keeps_modR fun r h => ?_
  cases i <;> exact h

end Verif.Priv
