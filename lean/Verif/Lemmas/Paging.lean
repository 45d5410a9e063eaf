import Verif.Spec.Paging
import Verif.Lemmas.Bits

namespace Verif.Paging
open Verif.Paging.Spec Verif.Bits

theorem pdeAt_eq (c : Ctl) (va : Addr) : (c.cr3 &&& 0xFFFFF000#32) ||| (va >>> 22) * 4#32 = pdeAt c va := by
  unfold pdeAt glue
  have : (va >>> 22) * 4#32 = (va >>> 22) <<< 2 := by
    rw [BitVec.shiftLeft_eq_mul_twoPow]; rfl
  rw [this]
  bits32

theorem pteAt_eq (pde : Word) (va : Addr) : (pde &&& 0xFFFFF000#32) ||| ((va >>> 12) &&& 0x3FF#32) * 4#32 = pteAt pde va := by
  unfold pteAt glue
  have : ((va >>> 12) &&& 0x3FF#32) * 4#32 = ((va >>> 12) &&& 0x3FF#32) <<< 2 := by
    rw [BitVec.shiftLeft_eq_mul_twoPow]; rfl
  rw [this]
  bits32
theorem frame4m (pde : Word) (va : Addr) : (pde &&& 0xFFC00000#32) ||| (va &&& 0x3FFFFF#32) = glue 22 (pde.extractLsb' 22 10) (va.extractLsb' 0 22) := by
  unfold glue
  bits32
theorem frame4k (pde : Word) (va : Addr) : (pde &&& 0xFFFFF000#32) ||| (va &&& 0xFFF#32) = glue 12 (pde.extractLsb' 12 20) (va.extractLsb' 0 12) := by
  unfold glue
  bits32

theorem privOf_eq (e : Word) : privOf e = 2 * b2n (writable e) + 4 * b2n (user e) := by
  unfold privOf writable user
  have h1 : (2#32 : Word) = BitVec.twoPow 32 1 := by decide
  have h2 : (4#32 : Word) = BitVec.twoPow 32 2 := by decide
  rw [h1, h2, BitVec.and_twoPow, BitVec.and_twoPow]
  cases e.getLsbD 1 <;> cases e.getLsbD 2 <;> decide

theorem bit_test (e k : Word) (i : Nat) (hk : k = BitVec.twoPow 32 i) (hi : i < 32) : (e &&& k = 0#32) = (e.getLsbD i = false) :=
  propext (and_eq_zero i hk hi)

theorem wp_test (c : Ctl) : (c.cr0 &&& 0x10000#32 ≠ 0#32) = (writeProtect c = true) := by
  have := bit_test c.cr0 0x10000#32 16 (by decide) (by omega)
  simp only [ne_eq, this, writeProtect]; simp

theorem cpuLv_eq (c : Ctl) : cpuLv c = 4 * b2n (c.cpl == 3#2) := by
  unfold cpuLv
  by_cases h : c.cpl = 3#2 <;> simp [h, b2n]

theorem memAccess_eq (c : Ctl) (wr pr : Bool) : memAccess c wr pr = 2 * b2n wr + 4 * b2n (userAccess c pr) := by
  unfold memAccess userAccess
  rw [cpuLv_eq]
  cases c.cpl == 3#2 <;> cases wr <;> cases pr <;> decide

/-- The rights check of the code against a page whose combined rights are (u, w). -/
def granted (wp u w usr wr : Bool) : Bool := (!usr || u) && (!wr || w || (!usr && !wp))

theorem checkPageAccess_eq (c : Ctl) (u w usr wr : Bool) :
    checkPageAccess c.cr0 (2 * b2n w + 4 * b2n u) (2 * b2n wr + 4 * b2n usr) =
      some (if granted (writeProtect c) u w usr wr then 1 else 0) := by
  unfold checkPageAccess granted
  simp only [wp_test]
  cases writeProtect c <;> cases u <;> cases w <;> cases usr <;> cases wr <;> decide

/-- check_page_privilege: for a page that is not a user page at both levels the code grants the *union* of the write rights. -/
def codeW (u1 w1 u2 w2 : Bool) : Bool := if u1 && u2 then w1 && w2 else w1 || w2

theorem checkPagePrivilege_eq (u1 w1 u2 w2 : Bool) :
    checkPagePrivilege (2 * b2n w1 + 4 * b2n u1) (2 * b2n w2 + 4 * b2n u2) =
      some ((2 * b2n (codeW u1 w1 u2 w2) + 4 * b2n (u1 && u2) : Nat) : Int) := by
  cases u1 <;> cases w1 <;> cases u2 <;> cases w2 <;> decide

/-- tlb_gen_access_mask. -/
def rightsMask (wp u w : Bool) : Word :=
  (1#32 ||| (if w || !wp then 2#32 else 0#32)) ||| ((if u then 4#32 else 0#32) ||| (if u && w then 8#32 else 0#32))

theorem genAccessMask_eq (c : Ctl) (u w : Bool) :
    genAccessMask c.cr0 ((2 * b2n w + 4 * b2n u) &&& 4) ((2 * b2n w + 4 * b2n u) &&& 2 != 0) =
      some (rightsMask (writeProtect c) u w) := by
  unfold genAccessMask
  simp only [wp_test]
  cases writeProtect c <;> cases u <;> cases w <;> decide

theorem errCode_eq (c : Ctl) (p wr : Bool) :
    errCode c p wr = BitVec.ofNat 8 (b2n p + 2 * b2n wr + 4 * b2n (c.cpl == 3#2)) := by
  unfold errCode
  rw [cpuLv_eq]
  cases p <;> cases wr <;> cases c.cpl == 3#2 <;> decide

/-- The write permission the code computes for a mapping. -/
def codeWritable (m : Mem) (mp : Mapping) : Bool :=
  if mp.user then mp.writable else writable (word m mp.pdeAddr) || writable (word m mp.leafAddr)

theorem rd32_word (m : Mem) (a : Addr) : rd32 m a = word m a := rfl

/-! Word memory. -/

theorem word_wr32_same (m : Mem) (a : Addr) (v : Word) : word (wr32 m a v) a = v := by
  have h1 : a + 1#32 ≠ a := by grind
  have h2 : a + 2#32 ≠ a := by grind
  have h3 : a + 3#32 ≠ a := by grind
  have h4 : a + 2#32 ≠ a + 1#32 := by grind
  have h5 : a + 3#32 ≠ a + 1#32 := by grind
  have h6 : a + 3#32 ≠ a + 2#32 := by grind
  have e0 : wr32 m a v a = v.extractLsb' 0 8 := by unfold wr32; rw [if_pos rfl]
  have e1 : wr32 m a v (a + 1#32) = v.extractLsb' 8 8 := by unfold wr32; rw [if_neg h1, if_pos rfl]
  have e2 : wr32 m a v (a + 2#32) = v.extractLsb' 16 8 := by unfold wr32; rw [if_neg h2, if_neg h4, if_pos rfl]
  have e3 : wr32 m a v (a + 3#32) = v.extractLsb' 24 8 := by unfold wr32; rw [if_neg h3, if_neg h5, if_neg h6, if_pos rfl]
  unfold word
  rw [e0, e1, e2, e3]
  bits32

theorem wr32_other (m : Mem) (a x : Addr) (v : Word) (h : ∀ k : Addr, k.toNat < 4 → x ≠ a + k) : wr32 m a v x = m x := by
  have h0 := h 0#32 (by decide)
  have h1 := h 1#32 (by decide)
  have h2 := h 2#32 (by decide)
  have h3 := h 3#32 (by decide)
  have h0' : x ≠ a := by simpa using h0
  unfold wr32
  rw [if_neg h0', if_neg h1, if_neg h2, if_neg h3]

theorem aligned_ne {a b j k : Addr} (ha : a.toNat % 4 = 0) (hb : b.toNat % 4 = 0) (hab : a ≠ b) (hj : j.toNat < 4) (hk : k.toNat < 4) :
    a + j ≠ b + k := by
  intro h
  apply hab
  have := congrArg BitVec.toNat h
  simp only [BitVec.toNat_add] at this
  apply BitVec.eq_of_toNat_eq
  have := a.isLt
  have := b.isLt
  omega

theorem word_wr32_other (m : Mem) {a b : Addr} (v : Word) (ha : a.toNat % 4 = 0) (hb : b.toNat % 4 = 0) (hab : b ≠ a) :
    word (wr32 m a v) b = word m b := by
  unfold word
  have e0 : wr32 m a v b = m b := by
    have := wr32_other m a (b + 0#32) v (fun k hk => aligned_ne hb ha hab (by decide) hk)
    simpa using this
  rw [e0, wr32_other m a _ v (fun k hk => aligned_ne hb ha hab (by decide) hk),
    wr32_other m a _ v (fun k hk => aligned_ne hb ha hab (by decide) hk),
    wr32_other m a _ v (fun k hk => aligned_ne hb ha hab (by decide) hk)]

theorem or_a (e : Word) (i : Nat) : (e ||| 0x20#32).getLsbD i = (e.getLsbD i || i == 5) := by
  have : (0x20#32 : Word) = BitVec.twoPow 32 5 := by decide
  rw [this, BitVec.getLsbD_or, BitVec.getLsbD_twoPow]
  by_cases h : i = 5
  · subst h; simp
  · have : ¬ 5 = i := by omega
    simp [h, this]

theorem or_d (e : Word) (i : Nat) : (e ||| 0x40#32).getLsbD i = (e.getLsbD i || i == 6) := by
  have : (0x40#32 : Word) = BitVec.twoPow 32 6 := by decide
  rw [this, BitVec.getLsbD_or, BitVec.getLsbD_twoPow]
  by_cases h : i = 6
  · subst h; simp
  · have : ¬ 6 = i := by omega
    simp [h, this]

theorem acc_test (e : Word) : (e &&& 0x20#32 = 0#32) = (accessed e = false) := bit_test e _ 5 (by decide) (by omega)

theorem touch_word (m : Mem) (a : Addr) (wr : Bool) (i : Nat) :
    (word (touch m a (word m a) wr) a).getLsbD i = ((word m a).getLsbD i || i == 5 || (i == 6 && wr)) := by
  unfold touch
  simp only [acc_test]
  cases wr
  · simp only [Bool.false_eq_true, or_false, if_false, Bool.and_false, Bool.or_false]
    split
    · rw [word_wr32_same, or_a]
    · rename_i h
      by_cases h5 : i = 5
      · subst h5; simpa [accessed] using h
      · simp [h5]
  · simp only [or_true, if_true, Bool.and_true]
    rw [word_wr32_same, or_d, or_a]

theorem touchPde_word (m : Mem) (a : Addr) (i : Nat) :
    (word (touchPde m a (word m a)) a).getLsbD i = ((word m a).getLsbD i || i == 5) := by
  unfold touchPde
  simp only [acc_test]
  split
  · rw [word_wr32_same, or_a]
  · rename_i h
    by_cases h5 : i = 5
    · subst h5; simpa [accessed] using h
    · simp [h5]

theorem touch_other (m : Mem) (a x : Addr) (e : Word) (wr : Bool) (h : ∀ k : Addr, k.toNat < 4 → x ≠ a + k) : touch m a e wr x = m x := by
  unfold touch; split
  · exact wr32_other _ _ _ _ h
  · rfl

theorem touchPde_other (m : Mem) (a x : Addr) (e : Word) (h : ∀ k : Addr, k.toNat < 4 → x ≠ a + k) : touchPde m a e x = m x := by
  unfold touchPde; split
  · exact wr32_other _ _ _ _ h
  · rfl

theorem touch_word_other (m : Mem) {a b : Addr} (e : Word) (wr : Bool) (ha : a.toNat % 4 = 0) (hb : b.toNat % 4 = 0) (hab : b ≠ a) :
    word (touch m a e wr) b = word m b := by
  unfold touch; split
  · exact word_wr32_other _ _ ha hb hab
  · rfl

theorem touchPde_word_other (m : Mem) {a b : Addr} (e : Word) (ha : a.toNat % 4 = 0) (hb : b.toNat % 4 = 0) (hab : b ≠ a) :
    word (touchPde m a e) b = word m b := by
  unfold touchPde; split
  · exact word_wr32_other _ _ ha hb hab
  · rfl

theorem aligned_of_and {x : Addr} (h : x &&& 3#32 = 0#32) : x.toNat % 4 = 0 := by
  have := congrArg BitVec.toNat h
  simp only [BitVec.toNat_and] at this
  have e : (3#32 : Addr).toNat = 2 ^ 2 - 1 := by decide
  rw [e, Nat.and_two_pow_sub_one_eq_mod] at this
  simpa using this

theorem pdeAt_aligned (c : Ctl) (va : Addr) : (pdeAt c va).toNat % 4 = 0 := by
  apply aligned_of_and
  unfold pdeAt glue
  bits32

theorem pteAt_aligned (pde : Word) (va : Addr) : (pteAt pde va).toNat % 4 = 0 := by
  apply aligned_of_and
  unfold pteAt glue
  bits32

theorem mapping_aligned {fix : Addr → Addr} (hf : KeepsWords fix) {c : Ctl} {m : Mem} {va : Addr} {mp : Mapping}
    (h : mapping fix c m va = some mp) : mp.pdeAddr.toNat % 4 = 0 ∧ mp.leafAddr.toNat % 4 = 0 := by
  unfold mapping at h
  simp only at h
  split at h
  · split at h
    · simp only [Option.some.injEq] at h; subst h
      exact ⟨hf _ (pdeAt_aligned _ _), hf _ (pdeAt_aligned _ _)⟩
    · split at h
      · simp only [Option.some.injEq] at h; subst h
        exact ⟨hf _ (pdeAt_aligned _ _), hf _ (pteAt_aligned _ _)⟩
      · simp at h
  · simp at h

/-- The complete behaviour of the walk with paging enabled, by the mapping of the address. -/
theorem walk_none {fix : Addr → Addr} {c : Ctl} {m : Mem} {va : Addr} {wr pr sc : Bool} (hp : pagingOn c = true)
    (h : mapping fix c m va = none) : walk fix c m va wr pr sc = (.fault va (errCode c false wr), m) := by
  have hpg : ¬ (c.cr0 &&& 0x80000000#32 = 0#32) := by
    rw [bit_test c.cr0 _ 31 (by decide) (by omega)]
    simpa [pagingOn] using hp
  unfold walk
  rw [if_neg hpg]
  simp only [pdeAt_eq, pteAt_eq, rd32_word]
  unfold mapping at h
  simp only at h
  split at h
  · rename_i hpres
    have h1 : ¬ (word m (fix (pdeAt c va)) &&& 1#32 = 0#32) := by
      rw [bit_test _ _ 0 (by decide) (by omega)]; simpa [present] using hpres
    rw [if_neg h1]
    split at h
    · simp at h
    · rename_i hl
      have h2 : ¬ (word m (fix (pdeAt c va)) &&& 0x80#32 ≠ 0#32 ∧ c.cr4 &&& 0x10#32 ≠ 0#32) := by
        rw [ne_eq, ne_eq, bit_test _ _ 7 (by decide) (by omega), bit_test _ _ 4 (by decide) (by omega)]
        simpa [large, bigPages] using hl
      rw [if_neg h2]
      split at h
      · simp at h
      · rename_i hpt
        have h3 : word m (fix (pteAt (word m (fix (pdeAt c va))) va)) &&& 1#32 = 0#32 := by
          rw [bit_test _ _ 0 (by decide) (by omega)]; simpa [present] using hpt
        rw [if_pos h3]
  · rename_i hpres
    have h1 : (word m (fix (pdeAt c va)) &&& 1#32 = 0#32) := by
      rw [bit_test _ _ 0 (by decide) (by omega)]; simpa [present] using hpres
    rw [if_pos h1]

theorem walk_some {fix : Addr → Addr} {c : Ctl} {m : Mem} {va : Addr} {wr pr sc : Bool} (hp : pagingOn c = true) {mp : Mapping}
    (h : mapping fix c m va = some mp) :
    (granted (writeProtect c) mp.user (codeWritable m mp) (userAccess c pr) wr = false →
      walk fix c m va wr pr sc = (.fault va (errCode c true wr), m)) ∧
    (granted (writeProtect c) mp.user (codeWritable m mp) (userAccess c pr) wr = true →
      ∃ m', walk fix c m va wr pr sc =
        (.ok mp.phys (rightsMask (writeProtect c) mp.user (codeWritable m mp) ||| protTail c (word m mp.leafAddr) wr sc), m') ∧
        (KeepsWords fix → Marked m mp wr m')) := by
  have hal := fun hf => mapping_aligned (fix := fix) hf h
  have hpg : ¬ (c.cr0 &&& 0x80000000#32 = 0#32) := by
    rw [bit_test c.cr0 _ 31 (by decide) (by omega)]
    simpa [pagingOn] using hp
  unfold walk
  rw [if_neg hpg]
  simp only [pdeAt_eq, pteAt_eq, rd32_word]
  unfold mapping at h
  simp only at h
  split at h
  · rename_i hpres
    have h1 : ¬ (word m (fix (pdeAt c va)) &&& 1#32 = 0#32) := by
      rw [bit_test _ _ 0 (by decide) (by omega)]; simpa [present] using hpres
    rw [if_neg h1]
    split at h
    · rename_i hl
      have h2 : (word m (fix (pdeAt c va)) &&& 0x80#32 ≠ 0#32 ∧ c.cr4 &&& 0x10#32 ≠ 0#32) := by
        rw [ne_eq, ne_eq, bit_test _ _ 7 (by decide) (by omega), bit_test _ _ 4 (by decide) (by omega)]
        simpa [large, bigPages] using hl
      rw [if_pos h2]
      simp only [Option.some.injEq] at h; subst h
      have hcw : codeWritable m { phys := glue 22 ((word m (fix (pdeAt c va))).extractLsb' 22 10) (va.extractLsb' 0 22), user := user (word m (fix (pdeAt c va))), writable := writable (word m (fix (pdeAt c va))), global := global (word m (fix (pdeAt c va))), pdeAddr := fix (pdeAt c va), leafAddr := fix (pdeAt c va) } = writable (word m (fix (pdeAt c va))) := by
        simp [codeWritable]
      simp only [hcw, privOf_eq, memAccess_eq, checkPageAccess_eq, genAccessMask_eq, frame4m]
      refine ⟨fun hg => by simp [hg], fun hg => ?_⟩
      rw [hg]
      refine ⟨touch m (fix (pdeAt c va)) (word m (fix (pdeAt c va))) wr, by simp, fun _ => ⟨?_, ?_, ?_⟩⟩
      · intro i; exact touch_word _ _ _ _
      · intro hn; exact absurd rfl hn
      · intro x hx _; exact touch_other _ _ _ _ _ hx
    · rename_i hl
      have h2 : ¬ (word m (fix (pdeAt c va)) &&& 0x80#32 ≠ 0#32 ∧ c.cr4 &&& 0x10#32 ≠ 0#32) := by
        rw [ne_eq, ne_eq, bit_test _ _ 7 (by decide) (by omega), bit_test _ _ 4 (by decide) (by omega)]
        simpa [large, bigPages] using hl
      rw [if_neg h2]
      split at h
      · rename_i hpt
        have h3 : ¬ (word m (fix (pteAt (word m (fix (pdeAt c va))) va)) &&& 1#32 = 0#32) := by
          rw [bit_test _ _ 0 (by decide) (by omega)]; simpa [present] using hpt
        rw [if_neg h3]
        simp only [Option.some.injEq] at h
        have hcw : codeWritable m mp = codeW (user (word m (fix (pdeAt c va)))) (writable (word m (fix (pdeAt c va)))) (user (word m (fix (pteAt (word m (fix (pdeAt c va))) va)))) (writable (word m (fix (pteAt (word m (fix (pdeAt c va))) va)))) := by
          subst h; rfl
        have hu : mp.user = (user (word m (fix (pdeAt c va))) && user (word m (fix (pteAt (word m (fix (pdeAt c va))) va)))) := by subst h; rfl
        have hph : mp.phys = glue 12 ((word m (fix (pteAt (word m (fix (pdeAt c va))) va))).extractLsb' 12 20) (va.extractLsb' 0 12) := by subst h; rfl
        have hpa : mp.pdeAddr = fix (pdeAt c va) := by subst h; rfl
        have hla : mp.leafAddr = fix (pteAt (word m (fix (pdeAt c va))) va) := by subst h; rfl
        clear h
        have hti : ∀ (a b : Bool), ((2 * b2n a + 4 * b2n b : Nat) : Int).toNat = 2 * b2n a + 4 * b2n b := by
          intro a b; cases a <;> cases b <;> decide
        simp only [privOf_eq, memAccess_eq, checkPagePrivilege_eq, hti, checkPageAccess_eq, genAccessMask_eq, frame4k, hcw, hu, hph, hla]
        refine ⟨fun hg => by simp [hg], fun hg => ?_⟩
        rw [hg]
        refine ⟨_, rfl, fun hf => ?_⟩
        obtain ⟨hpal, hlal⟩ := hal hf
        rw [← hpa] at *
        rw [← hla] at *
        by_cases hsame : mp.pdeAddr = mp.leafAddr
        · -- a self-mapped page directory: pde and pte are the same word
          refine ⟨?_, fun hn => absurd hsame hn, ?_⟩
          · intro i
            rw [hsame]
            unfold touchPde
            simp only [acc_test]
            split
            · rename_i ha
              unfold touch
              simp only [acc_test]
              rw [if_pos (Or.inl ha), word_wr32_same]
              cases wr
              · simp only [Bool.false_eq_true, if_false, or_a, Bool.and_false, Bool.or_false]
              · simp only [if_true, or_a, or_d, Bool.and_true]
            · exact touch_word _ _ _ _
          · intro x hx hx'
            rw [touch_other _ _ _ _ _ hx', touchPde_other _ _ _ _ hx]
        · refine ⟨?_, ?_, ?_⟩
          · intro i
            have e : word m mp.leafAddr = word (touchPde m mp.pdeAddr (word m mp.pdeAddr)) mp.leafAddr :=
              (touchPde_word_other _ _ hpal hlal (Ne.symm hsame)).symm
            rw [e, touch_word]
          · intro _ i
            rw [touch_word_other _ _ _ hlal hpal hsame, touchPde_word]
          · intro x hx hx'
            rw [touch_other _ _ _ _ _ hx', touchPde_other _ _ _ _ hx]
      · simp at h
  · simp at h

end Verif.Paging
