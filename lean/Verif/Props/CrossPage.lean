/-
C24: accesses that cross a page are byte accesses.
-/
import Verif.Model.CrossPage
import Verif.Props.Tlb

namespace Verif.Paging
open Verif.Paging.Spec Verif.Bits

theorem answer_samePage {b : Bus} (hb : PageWise b) {c : Ctl} {m : Mem} {a a' p : Addr} {wr pr : Bool} (hp : pageBase a = pageBase a')
    (h : answer b c m a wr pr = some p) : answer b c m a' wr pr = some (pageBase p ||| (a' &&& 0xFFF#32)) ∧ p &&& 0xFFF#32 = a &&& 0xFFF#32 := by
  cases hpg : pagingOn c with
  | false =>
    rw [answer_off hpg] at h ⊢
    simp only [Option.some.injEq] at h ⊢
    subst h
    exact ⟨fix_samePage hb a' hp.symm rfl, hb.offset a⟩
  | true =>
    rw [answer_on hpg] at h ⊢
    cases hm : mapping b.fix c m a with
    | none => rw [hm] at h; simp at h
    | some mp =>
      rw [hm] at h
      simp only at h
      rw [mapping_samePage hp hm]
      split at h
      · next hg =>
        simp only [Option.some.injEq] at h
        subst h
        simp only
        have e4 : codeWritable m { mp with phys := pageBase mp.phys ||| (a' &&& 0xFFF#32) } = codeWritable m mp := rfl
        rw [e4, if_pos hg]
        refine ⟨?_, ?_⟩
        · rw [fix_samePage hb (p := mp.phys) (x := a') _ (base_or_off _ _) (off_or_off _ _)]
        · rw [hb.offset, mapping_offset hm]
      · simp at h

theorem pageBase_toNat (x : Addr) : (pageBase x).toNat = x.toNat / 4096 * 4096 := by
  have : pageBase x = (x >>> 12) <<< 12 := by unfold pageBase; bits32
  rw [this, BitVec.toNat_shiftLeft, BitVec.toNat_ushiftRight, Nat.shiftLeft_eq, Nat.shiftRight_eq_div_pow]
  have := x.isLt
  omega

theorem low_toNat (x : Addr) : (x &&& 0xFFF#32).toNat = x.toNat % 4096 := by
  rw [BitVec.toNat_and]
  have : (0xFFF#32 : Addr).toNat = 2 ^ 12 - 1 := by decide
  rw [this, Nat.and_two_pow_sub_one_eq_mod]

theorem base_or_low_toNat (p a : Addr) : (pageBase p ||| (a &&& 0xFFF#32)).toNat = p.toNat / 4096 * 4096 + a.toNat % 4096 := by
  have : pageBase p ||| (a &&& 0xFFF#32) = pageBase p + (a &&& 0xFFF#32) := by
    rw [BitVec.add_eq_or_of_and_eq_zero]
    unfold pageBase; bits32
  rw [this, BitVec.toNat_add, pageBase_toNat, low_toNat]
  have := p.isLt
  omega

theorem crossAddrs_length (bip : Nat) (pe : Addr) : ∀ k i p, (crossAddrs bip pe k i p).length = k := by
  intro k
  induction k with
  | zero => intro i p; rfl
  | succ k ih => intro i p; simp [crossAddrs, ih]

theorem crossAddrs_get (bip : Nat) (pe : Addr) : ∀ k i p j, j < k → (i < bip ∨ p = pageBase pe + BitVec.ofNat 32 (i - bip)) →
    (crossAddrs bip pe k i p)[j]? = some (if i + j < bip then p + BitVec.ofNat 32 j else pageBase pe + BitVec.ofNat 32 (i + j - bip)) := by
  intro k
  induction k with
  | zero => intro i p j hj; omega
  | succ k ih =>
    intro i p j hj hpre
    unfold crossAddrs
    cases j with
    | zero =>
      rw [List.getElem?_cons_zero]
      by_cases h : i < bip
      · rw [if_pos (by omega)]; simp
      · rw [if_neg (by omega)]
        rcases hpre with h' | h'
        · exact absurd h' h
        · rw [h']; simp
    | succ j =>
      rw [List.getElem?_cons_succ]
      by_cases h1 : i + 1 = bip
      · rw [if_pos h1, ih (i + 1) _ j (by omega) (Or.inr (by rw [h1]; simp))]
        congr 1
        rw [if_neg (by omega), if_neg (by omega)]
        congr 2
        omega
      · rw [if_neg h1]
        rcases hpre with h | h
        · rw [ih (i + 1) _ j (by omega) (Or.inl (by omega))]
          congr 1
          have e1 : i + 1 + j = i + (j + 1) := by omega
          rw [e1]
          split
          · apply BitVec.eq_of_toNat_eq; simp only [BitVec.toNat_add, BitVec.toNat_ofNat]; omega
          · rfl
        · by_cases hib : i < bip
          · rw [ih (i + 1) _ j (by omega) (Or.inl (by omega))]
            congr 1
            have e1 : i + 1 + j = i + (j + 1) := by omega
            rw [e1]
            split
            · apply BitVec.eq_of_toNat_eq; simp only [BitVec.toNat_add, BitVec.toNat_ofNat]; omega
            · rfl
          · rw [ih (i + 1) _ j (by omega) (Or.inr (by
              rw [h]; apply BitVec.eq_of_toNat_eq; simp only [BitVec.toNat_add, BitVec.toNat_ofNat]
              have : (1#32 : Addr).toNat = 1 := rfl
              omega))]
            congr 1
            have e1 : i + 1 + j = i + (j + 1) := by omega
            rw [e1, if_neg (by omega), if_neg (by omega)]

/-- The addresses of a list are the translations of the bytes of the access. -/
def BytesAt (b : Bus) (c : Ctl) (m : Mem) (va : Addr) (wr pr : Bool) (n : Nat) (as : List Addr) : Prop :=
  as.length = n ∧ ∀ i, i < n → ∃ p, as[i]? = some p ∧ answer b c m (va + BitVec.ofNat 32 i) wr pr = some p

theorem translate_ctl (b : Bus) (s : St) (f : Bool) (va : Addr) (wr pr sc : Bool) (v : Nat) : (translate b s f va wr pr sc v).1.ctl = s.ctl := by
  unfold translate
  split
  · rfl
  · rfl
  · simp only [fill]; cases f <;> rfl

theorem translate_mem {b : Bus} (hb : PageWise b) (s : St) (f : Bool) (va : Addr) (wr pr sc : Bool) (v : Nat) :
    SameAD s.mem (translate b s f va wr pr sc v).1.mem := by
  unfold translate
  cases hw : walk b.fix s.ctl s.mem va wr pr sc with
  | mk w m' =>
    cases w with
    | fault a c => have := fault_mem hw (by simp); subst this; exact fun _ _ _ _ _ => rfl
    | ub => have := fault_mem hw (by simp); subst this; exact fun _ _ _ _ _ => rfl
    | ok q pr1 =>
      have := (walk_protOk hb hw).2
      simp only [fill]
      cases f <;> exact this

theorem samePage_of_nat {a a' : Addr} (h : a.toNat / 4096 = a'.toNat / 4096) : pageBase a = pageBase a' := (pageBase_eq_iff a a').2 h

/-- Success means the translation of every byte, in order; failure means some byte of the access is denied. -/
theorem slowAddrs_spec (b : Bus) (hb : PageWise b) (s : St) (va : Addr) (n : Nat) (hn : 1 ≤ n ∧ n ≤ 4096) (wr pr : Bool) (v1 v2 : Nat) :
    SameAD s.mem (slowAddrs b s va n wr pr v1 v2).1.mem ∧ (slowAddrs b s va n wr pr v1 v2).1.ctl = s.ctl ∧
    (match (slowAddrs b s va n wr pr v1 v2).2 with
      | .ok as => BytesAt b s.ctl s.mem va wr pr n as
      | .error _ => ∃ i, i < n ∧ answer b s.ctl s.mem (va + BitVec.ofNat 32 i) wr pr = none) := by
  have hlast : va + BitVec.ofNat 32 n - 1#32 = va + BitVec.ofNat 32 (n - 1) := by
    apply BitVec.eq_of_toNat_eq
    simp only [BitVec.toNat_add, BitVec.toNat_sub, BitVec.toNat_ofNat]
    have := va.isLt
    omega
  have hva := va.isLt
  have t1 := translate_ok_iff b s false va wr pr false v1
  have m1 := translate_mem hb s false va wr pr false v1
  have c1 := translate_ctl b s false va wr pr false v1
  have at0 : va + BitVec.ofNat 32 0 = va := by simp
  have nat_i : ∀ i, i < n → (va + BitVec.ofNat 32 i).toNat = (va.toNat + i) % 4294967296 := by
    intro i hi
    simp only [BitVec.toNat_add, BitVec.toNat_ofNat]
    omega
  unfold slowAddrs
  by_cases hcross : n ≠ 1 ∧ pageBase va ≠ pageBase (va + BitVec.ofNat 32 n - 1#32)
  · rw [if_pos hcross]
    cases ht1 : translate b s false va wr pr false v1 with
    | mk s1 r1 =>
      rw [ht1] at t1 m1 c1
      simp only at t1 m1 c1
      cases r1 with
      | fault a c =>
        refine ⟨m1, c1, 0, by omega, ?_⟩
        rw [at0]
        cases ha : answer b s.ctl s.mem va wr pr with
        | none => rfl
        | some p => have := (t1 p).2 ha; simp at this
      | ub =>
        refine ⟨m1, c1, 0, by omega, ?_⟩
        rw [at0]
        cases ha : answer b s.ctl s.mem va wr pr with
        | none => rfl
        | some p => have := (t1 p).2 ha; simp at this
      | ok ps =>
        have ans1 := (t1 ps).1 rfl
        have t2 := translate_ok_iff b s1 false (va + BitVec.ofNat 32 n - 1#32) wr pr false v2
        have m2 := translate_mem hb s1 false (va + BitVec.ofNat 32 n - 1#32) wr pr false v2
        have c2 := translate_ctl b s1 false (va + BitVec.ofNat 32 n - 1#32) wr pr false v2
        have same : ∀ x, answer b s1.ctl s1.mem x wr pr = answer b s.ctl s.mem x wr pr := by
          intro x; rw [c1]; exact answer_sameAD (keeps_of hb) m1 x wr pr
        have mtrans : ∀ m3, SameAD s1.mem m3 → SameAD s.mem m3 := fun m3 h a ha i h5 h6 => (h a ha i h5 h6).trans (m1 a ha i h5 h6)
        simp only
        cases ht2 : translate b s1 false (va + BitVec.ofNat 32 n - 1#32) wr pr false v2 with
        | mk s2 r2 =>
          rw [ht2] at t2 m2 c2
          simp only at t2 m2 c2
          cases r2 with
          | fault a c =>
            refine ⟨mtrans _ m2, c2.trans c1, n - 1, by omega, ?_⟩
            rw [← hlast, ← same]
            cases ha : answer b s1.ctl s1.mem (va + BitVec.ofNat 32 n - 1#32) wr pr with
            | none => rfl
            | some p => have := (t2 p).2 ha; simp at this
          | ub =>
            refine ⟨mtrans _ m2, c2.trans c1, n - 1, by omega, ?_⟩
            rw [← hlast, ← same]
            cases ha : answer b s1.ctl s1.mem (va + BitVec.ofNat 32 n - 1#32) wr pr with
            | none => rfl
            | some p => have := (t2 p).2 ha; simp at this
          | ok pe =>
            have ans2 := (t2 pe).1 rfl
            rw [same] at ans2
            refine ⟨mtrans _ m2, c2.trans c1, crossAddrs_length _ _ _ _ _, fun i hi => ?_⟩
            -- arithmetic of the crossing
            have hlastN := nat_i (n - 1) (by omega)
            rw [hlast] at hcross ans2
            have hne : va.toNat / 4096 ≠ (va + BitVec.ofNat 32 (n - 1)).toNat / 4096 := fun h => hcross.2 (samePage_of_nat h)
            rw [hlastN] at hne
            have hbip : va.toNat % 4096 + bytesInPage va n = 4096 := by
              unfold bytesInPage
              rw [hlast, BitVec.toNat_sub, pageBase_toNat, hlastN]
              omega
            have hb1 : 1 ≤ bytesInPage va n ∧ bytesInPage va n < n := by
              have h1 : va.toNat % 4096 + (n - 1) ≥ 4096 := by
                have := Nat.div_add_mod va.toNat 4096
                omega
              omega
            have hget := crossAddrs_get (bytesInPage va n) pe n 0 ps i hi (Or.inl (by omega))
            refine ⟨_, hget, ?_⟩
            simp only [Nat.zero_add]
            by_cases hlt : i < bytesInPage va n
            · rw [if_pos hlt]
              have hpage : pageBase va = pageBase (va + BitVec.ofNat 32 i) := by
                apply samePage_of_nat; rw [nat_i i hi]; omega
              obtain ⟨g1, g2⟩ := answer_samePage hb hpage ans1
              rw [g1]; congr 1
              apply BitVec.eq_of_toNat_eq
              rw [base_or_low_toNat, nat_i i hi]
              have := (low_eq_iff ps va).1 g2
              simp only [BitVec.toNat_add, BitVec.toNat_ofNat]
              have := ps.isLt
              omega
            · rw [if_neg hlt]
              have hpage : pageBase (va + BitVec.ofNat 32 (n - 1)) = pageBase (va + BitVec.ofNat 32 i) := by
                apply samePage_of_nat; rw [nat_i i hi, hlastN]; omega
              obtain ⟨g1, g2⟩ := answer_samePage hb hpage ans2
              rw [g1]; congr 1
              apply BitVec.eq_of_toNat_eq
              rw [base_or_low_toNat, nat_i i hi]
              simp only [BitVec.toNat_add, BitVec.toNat_ofNat, pageBase_toNat]
              have := pe.isLt
              omega
  · rw [if_neg hcross]
    have hpageAll : ∀ i, i < n → pageBase va = pageBase (va + BitVec.ofNat 32 i) := by
      intro i hi
      apply samePage_of_nat
      rw [nat_i i hi]
      by_cases h1 : n = 1
      · have : i = 0 := by omega
        subst this; omega
      · have hp : pageBase va = pageBase (va + BitVec.ofNat 32 (n - 1)) := by
          rw [← hlast]
          exact Classical.byContradiction (fun h => hcross ⟨h1, h⟩)
        rw [pageBase_eq_iff, nat_i (n - 1) (by omega)] at hp
        omega
    cases ht1 : translate b s false va wr pr false v1 with
    | mk s1 r1 =>
      rw [ht1] at t1 m1 c1
      simp only at t1 m1 c1
      cases r1 with
      | fault a c =>
        refine ⟨m1, c1, 0, by omega, ?_⟩
        rw [at0]
        cases ha : answer b s.ctl s.mem va wr pr with
        | none => rfl
        | some p => have := (t1 p).2 ha; simp at this
      | ub =>
        refine ⟨m1, c1, 0, by omega, ?_⟩
        rw [at0]
        cases ha : answer b s.ctl s.mem va wr pr with
        | none => rfl
        | some p => have := (t1 p).2 ha; simp at this
      | ok ps =>
        have ans1 := (t1 ps).1 rfl
        refine ⟨m1, c1, by simp [flatAddrs], fun i hi => ⟨ps + BitVec.ofNat 32 i, by simp [flatAddrs, hi], ?_⟩⟩
        obtain ⟨g1, g2⟩ := answer_samePage hb (hpageAll i hi) ans1
        rw [g1]; congr 1
        apply BitVec.eq_of_toNat_eq
        rw [base_or_low_toNat, nat_i i hi]
        have h3 := (low_eq_iff ps va).1 g2
        have h4 := (pageBase_eq_iff _ _).1 (hpageAll i hi)
        rw [nat_i i hi] at h4
        simp only [BitVec.toNat_add, BitVec.toNat_ofNat]
        have := ps.isLt
        omega

theorem gather_bit (m : Mem) (w : Nat) : ∀ (as : List Addr) (i j k : Nat) (p : Addr), as[j]? = some p → k < 8 → (i + j) * 8 + k < w →
    (gather m w i as).getLsbD ((i + j) * 8 + k) = (m p).getLsbD k := by
  have low : ∀ (as : List Addr) (i t : Nat), t < i * 8 → (gather m w i as).getLsbD t = false := by
    intro as
    induction as with
    | nil => intro i t _; simp [gather]
    | cons a as ih =>
      intro i t ht
      simp only [gather, BitVec.getLsbD_or, ih (i + 1) t (by omega), BitVec.getLsbD_shiftLeft, ht]
      simp
  intro as
  induction as with
  | nil => intro i j k p h; simp at h
  | cons a as ih =>
    intro i j k p h hk hw
    cases j with
    | zero =>
      simp only [List.getElem?_cons_zero, Option.some.injEq] at h
      subst h
      simp only [gather, BitVec.getLsbD_or, Nat.add_zero] at *
      rw [low as (i + 1) (i * 8 + k) (by omega), Bool.or_false, BitVec.getLsbD_shiftLeft]
      have e : i * 8 + k - i * 8 = k := by omega
      rw [e, BitVec.getLsbD_setWidth]
      have h1 : ¬ (i * 8 + k < i * 8) := by omega
      have h2 : k < w := by omega
      simp [h1, h2, hw]
    | succ j =>
      simp only [List.getElem?_cons_succ] at h
      have e : (i + (j + 1)) * 8 + k = (i + 1 + j) * 8 + k := by omega
      rw [e] at hw ⊢
      simp only [gather, BitVec.getLsbD_or, ih (i + 1) j k p h hk hw, BitVec.getLsbD_shiftLeft]
      have h3 : ((m a).setWidth w).getLsbD ((i + 1 + j) * 8 + k - i * 8) = false := by
        rw [BitVec.getLsbD_setWidth]
        have : (m a).getLsbD ((i + 1 + j) * 8 + k - i * 8) = false := BitVec.getLsbD_of_ge _ _ (by omega)
        rw [this]; simp
      rw [h3]; simp

theorem scatter_notin {w : Nat} (val : BitVec w) : ∀ (as : List Addr) (i : Nat) (m : Mem) (x : Addr), x ∉ as → scatter val i as m x = m x := by
  intro as
  induction as with
  | nil => intro i m x _; rfl
  | cons a as ih =>
    intro i m x hx
    simp only [List.mem_cons, not_or] at hx
    rw [scatter, ih _ _ x hx.2]
    simp [hx.1]

theorem scatter_get {w : Nat} (val : BitVec w) : ∀ (as : List Addr), as.Nodup → ∀ (i j : Nat) (m : Mem) (x : Addr), as[j]? = some x →
    scatter val i as m x = (val >>> ((i + j) * 8)).setWidth 8 := by
  intro as
  induction as with
  | nil => intro _ i j m x h; simp at h
  | cons a as ih =>
    intro hnd i j m x h
    rw [List.nodup_cons] at hnd
    cases j with
    | zero =>
      simp only [List.getElem?_cons_zero, Option.some.injEq] at h
      subst h
      rw [scatter, scatter_notin _ _ _ _ _ hnd.1]
      simp
    | succ j =>
      simp only [List.getElem?_cons_succ] at h
      rw [scatter, ih hnd.2 (i + 1) j _ x h]
      have e : i + 1 + j = i + (j + 1) := by omega
      rw [e]

/-- The addresses of an access are distinct: their page offsets differ. -/
theorem bytesAt_nodup {b : Bus} (hb : PageWise b) {c : Ctl} {m : Mem} {va : Addr} {wr pr : Bool} {n : Nat} (hn : n ≤ 4096) {as : List Addr}
    (h : BytesAt b c m va wr pr n as) : as.Nodup := by
  rw [List.Nodup, List.pairwise_iff_getElem]
  intro i j hi' hj' hij heq
  have heq : as[i]? = as[j]? := by rw [List.getElem?_eq_getElem hi', List.getElem?_eq_getElem hj', heq]
  have hj : j < n := by rw [h.1] at hj'; exact hj'
  obtain ⟨p, h1, h2⟩ := h.2 i (by omega)
  obtain ⟨q, h3, h4⟩ := h.2 j hj
  rw [h1, h3, Option.some.injEq] at heq
  subst heq
  have o1 := (answer_samePage hb rfl h2).2
  have o2 := (answer_samePage hb rfl h4).2
  have := (low_eq_iff _ _).1 (o1.symm.trans o2)
  simp only [BitVec.toNat_add, BitVec.toNat_ofNat] at this
  omega

/-- C24, reads. A read of `n` bytes (on one page or crossing into the next) succeeds exactly if each of its bytes may be read; byte `i`
of the value is then the byte at the translation of `va + i`. Only accessed bits of page table entries change. -/
theorem C24_read_is_bytewise (b : Bus) (hb : PageWise b) (s : St) (va : Addr) (n : Nat) (hn : 1 ≤ n ∧ n ≤ 4096) (pr : Bool) (v1 v2 : Nat) :
    (∀ val, (memReadSlow b s va n pr v1 v2).2 = .ok val → ∀ i, i < n →
      ∃ p, answer b s.ctl s.mem (va + BitVec.ofNat 32 i) false pr = some p ∧ (val >>> (8 * i)).setWidth 8 = (memReadSlow b s va n pr v1 v2).1.mem p) ∧
    ((∃ val, (memReadSlow b s va n pr v1 v2).2 = .ok val) ↔ ∀ i, i < n → ∃ p, answer b s.ctl s.mem (va + BitVec.ofNat 32 i) false pr = some p) ∧
    SameAD s.mem (memReadSlow b s va n pr v1 v2).1.mem := by
  obtain ⟨hm, hc, hs⟩ := slowAddrs_spec b hb s va n hn false pr v1 v2
  unfold memReadSlow
  cases h : slowAddrs b s va n false pr v1 v2 with
  | mk s2 r =>
    rw [h] at hm hc hs
    cases r with
    | error e =>
      simp only at hm hc hs ⊢
      refine ⟨by simp, ?_, hm⟩
      constructor
      · rintro ⟨val, hv⟩; simp at hv
      · intro hall
        obtain ⟨i, hi, ha⟩ := hs
        obtain ⟨p, hp⟩ := hall i hi
        rw [ha] at hp; simp at hp
    | ok as =>
      simp only at hm hc hs ⊢
      refine ⟨?_, ?_, hm⟩
      · intro val hv i hi
        simp only [Except.ok.injEq] at hv
        obtain ⟨p, h1, h2⟩ := hs.2 i hi
        refine ⟨p, h2, ?_⟩
        rw [← hv]
        apply BitVec.eq_of_getLsbD_eq
        intro k hk
        have := gather_bit s2.mem (8 * n) as 0 i k p h1 hk (by omega)
        rw [BitVec.getLsbD_setWidth, BitVec.getLsbD_ushiftRight]
        have e : 8 * i + k = (0 + i) * 8 + k := by omega
        rw [e, this]; simp [hk]
      · constructor
        · intro _ i hi
          obtain ⟨p, _, h2⟩ := hs.2 i hi
          exact ⟨p, h2⟩
        · intro _; exact ⟨_, rfl⟩

theorem wide_notin {w : Nat} : ∀ (as : List Addr) (val : BitVec w) (i : Nat) (m : Mem) (x : Addr), x ∉ as → scatterWide val i as m x = m x := by
  intro as
  induction as with
  | nil => intro val i m x _; rfl
  | cons a as ih =>
    intro val i m x hx
    simp only [List.mem_cons, not_or] at hx
    rw [scatterWide, ih _ _ _ x hx.2]
    simp [hx.1]

/-- The sum of `i`, ..., `i + j`. -/
def sumFrom (i : Nat) : Nat → Nat
  | 0 => i
  | j + 1 => i + sumFrom (i + 1) j

theorem sumFrom_eq : ∀ (j i : Nat), 2 * sumFrom i j = (j + 1) * (2 * i + j) := by
  intro j
  induction j with
  | zero => intro i; simp [sumFrom]
  | succ j ih =>
    intro i
    rw [sumFrom, Nat.mul_add, ih (i + 1)]
    grind

theorem wide_get {w : Nat} : ∀ (as : List Addr), as.Nodup → ∀ (val : BitVec w) (i j : Nat) (m : Mem) (x : Addr), as[j]? = some x →
    scatterWide val i as m x = (val >>> (sumFrom i j * 8)).setWidth 8 := by
  intro as
  induction as with
  | nil => intro _ val i j m x h; simp at h
  | cons a as ih =>
    intro hnd val i j m x h
    rw [List.nodup_cons] at hnd
    cases j with
    | zero =>
      simp only [List.getElem?_cons_zero, Option.some.injEq] at h
      subst h
      rw [scatterWide, wide_notin _ _ _ _ _ hnd.1]
      simp [sumFrom]
    | succ j =>
      simp only [List.getElem?_cons_succ] at h
      rw [scatterWide, ih hnd.2 _ (i + 1) j _ x h, sumFrom, ← BitVec.shiftRight_add, Nat.add_mul]

/-- C24, writes. A write of `n` bytes succeeds exactly if each of its bytes may be written, and then changes no byte of memory but those of its
translations (and accessed and dirty bits). If it fails, nothing is written. If it has 1, 2, 4 or 8 bytes or stays on a page, byte `i` of the value is
then at the translation of `va + i`.  Missing: writes of 10 and 16 bytes across a page boundary, see C24_wide_write_violation. -/
theorem C24_write_is_bytewise_partial (b : Bus) (hb : PageWise b) (s : St) (va : Addr) (n : Nat) (hn : 1 ≤ n ∧ n ≤ 4096) (val : BitVec (8 * n)) (pr : Bool) (v1 v2 : Nat) :
    ((n ≠ 10 ∧ n ≠ 16) ∨ pageBase va = pageBase (va + BitVec.ofNat 32 n - 1#32) → (memWriteSlow b s va n val pr v1 v2).2 = .ok () → ∀ i, i < n →
      ∃ p, answer b s.ctl s.mem (va + BitVec.ofNat 32 i) true pr = some p ∧ (memWriteSlow b s va n val pr v1 v2).1.mem p = (val >>> (8 * i)).setWidth 8) ∧
    ((memWriteSlow b s va n val pr v1 v2).2 = .ok () ↔ ∀ i, i < n → ∃ p, answer b s.ctl s.mem (va + BitVec.ofNat 32 i) true pr = some p) ∧
    ∃ m, SameAD s.mem m ∧ ((memWriteSlow b s va n val pr v1 v2).2 ≠ .ok () → (memWriteSlow b s va n val pr v1 v2).1.mem = m) ∧
      ∀ x, (∀ i, i < n → answer b s.ctl s.mem (va + BitVec.ofNat 32 i) true pr ≠ some x) → (memWriteSlow b s va n val pr v1 v2).1.mem x = m x := by
  obtain ⟨hm, hc, hs⟩ := slowAddrs_spec b hb s va n hn true pr v1 v2
  unfold memWriteSlow
  cases h : slowAddrs b s va n true pr v1 v2 with
  | mk s2 r =>
    rw [h] at hm hc hs
    cases r with
    | error e =>
      simp only at hm hc hs ⊢
      refine ⟨by simp, ?_, s2.mem, hm, fun _ => rfl, fun _ _ => rfl⟩
      constructor
      · intro hv; simp at hv
      · intro hall
        obtain ⟨i, hi, ha⟩ := hs
        obtain ⟨p, hp⟩ := hall i hi
        rw [ha] at hp; simp at hp
    | ok as =>
      simp only at hm hc hs ⊢
      have hnd := bytesAt_nodup hb hn.2 hs
      refine ⟨?_, ?_, s2.mem, hm, fun hh => absurd rfl hh, fun x hx => ?_⟩
      · intro hw _ i hi
        obtain ⟨p, h1, h2⟩ := hs.2 i hi
        refine ⟨p, h2, ?_⟩
        have hf : (isWide n && crosses va n) = false := by
          rcases hw with ⟨w1, w2⟩ | hw
          · simp [isWide, w1, w2]
          · simp [crosses, hw]
        rw [hf, if_neg Bool.false_ne_true, scatter_get val as hnd 0 i s2.mem p h1]
        have e : (0 + i) * 8 = 8 * i := by omega
        rw [e]
      · constructor
        · intro _ i hi
          obtain ⟨p, _, h2⟩ := hs.2 i hi
          exact ⟨p, h2⟩
        · intro _; trivial
      · have hmem : x ∉ as := by
          intro hmem
          obtain ⟨i, hi⟩ := List.getElem?_of_mem hmem
          have hlt : i < n := by
            have := (List.getElem?_eq_some_iff.1 hi).1
            rw [hs.1] at this; exact this
          obtain ⟨p, h1, h2⟩ := hs.2 i hlt
          rw [hi, Option.some.injEq] at h1
          subst h1
          exact hx i hlt h2
        split
        · exact wide_notin _ _ _ _ _ hmem
        · exact scatter_notin _ _ _ _ _ hmem

/-- C24, what a write of 10 or 16 bytes across a page boundary stores: byte 0 + 1 + ... + `i` of the value at the translation of `va + i`, where
byte `i` belongs. -/
theorem C24_wide_write_partial (b : Bus) (hb : PageWise b) (s : St) (va : Addr) (n : Nat) (hn : n = 10 ∨ n = 16)
    (hx : pageBase va ≠ pageBase (va + BitVec.ofNat 32 n - 1#32)) (val : BitVec (8 * n)) (pr : Bool) (v1 v2 : Nat)
    (hok : (memWriteSlow b s va n val pr v1 v2).2 = .ok ()) (i : Nat) (hi : i < n) :
    ∃ p, answer b s.ctl s.mem (va + BitVec.ofNat 32 i) true pr = some p ∧
      (memWriteSlow b s va n val pr v1 v2).1.mem p = (val >>> (8 * (i * (i + 1) / 2))).setWidth 8 := by
  have hn' : 1 ≤ n ∧ n ≤ 4096 := by omega
  obtain ⟨hm, hc, hs⟩ := slowAddrs_spec b hb s va n hn' true pr v1 v2
  unfold memWriteSlow at hok ⊢
  cases h : slowAddrs b s va n true pr v1 v2 with
  | mk s2 r =>
    rw [h] at hm hc hs hok
    cases r with
    | error e => cases hok
    | ok as =>
      simp only at hm hc hs ⊢
      have hnd := bytesAt_nodup hb hn'.2 hs
      obtain ⟨p, h1, h2⟩ := hs.2 i hi
      refine ⟨p, h2, ?_⟩
      have hf : (isWide n && crosses va n) = true := by
        have : n ≠ 1 := by omega
        rcases hn with rfl | rfl <;> simp [isWide, crosses, hx]
      rw [hf, if_pos rfl, wide_get as hnd val 0 i s2.mem p h1]
      have e : sumFrom 0 i * 8 = 8 * (i * (i + 1) / 2) := by
        have := sumFrom_eq i 0
        rw [Nat.mul_zero, Nat.zero_add, Nat.mul_comm] at this
        rw [Nat.mul_comm i] at *
        omega
      rw [e]

/-- C24 fails for a 16 byte write that crosses a page: the bytes 0F 0E ... 00 are stored as 00 01 03 06 0A 0F 00 .... -/
theorem C24_wide_write_violation : let s : St := { exSt with mem := wr32 exMem 0x2010#32 0x9007#32 }
    let r := memWriteSlow exBus s 0x3FF8#32 16 0x0F0E0D0C0B0A09080706050403020100#128 false 0 1
    r.2.toBool = true ∧ answer exBus s.ctl s.mem 0x3FFA#32 true false = some 0x7FFA#32 ∧ r.1.mem 0x7FF8#32 = 0#8 ∧ r.1.mem 0x7FF9#32 = 1#8 ∧ r.1.mem 0x7FFA#32 = 3#8 ∧ r.1.mem 0x7FFB#32 = 6#8 ∧
      r.1.mem 0x9000#32 = 0#8 := by decide +kernel

/-- The 4 byte write at 0x3FFE lands at 0x7FFE, 0x7FFF (frame of page 3) and 0x9000, 0x9001 when page 4 maps frame 0x9000. -/
example : let s : St := { exSt with mem := wr32 exMem 0x2010#32 0x9007#32 }
    let r := memWriteSlow exBus s 0x3FFE#32 4 0xDDCCBBAA#32 false 0 1
    r.1.mem 0x7FFE#32 = 0xAA#8 ∧ r.1.mem 0x7FFF#32 = 0xBB#8 ∧ r.1.mem 0x9000#32 = 0xCC#8 ∧ r.1.mem 0x9001#32 = 0xDD#8 := by decide +kernel
example : (memReadSlow exBus { exSt with mem := wr32 exMem 0x2010#32 0x2007#32 } 0x3FFE#32 4 false 0 1).2 = .ok 0x00000000#32 := by rfl

end Verif.Paging
