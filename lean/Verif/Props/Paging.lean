/-
C15-C19: address translation.  `walk` is mmu_translate_addr before the TLB is filled; the rules are in Spec/Paging.lean.
-/
import Verif.Lemmas.Paging

namespace Verif.Paging
open Verif.Paging.Spec

/-! A concrete address space used by the examples: page directory at 0x1000, page table at 0x2000.
Page directory entry 0 (user, writable) points to the table; table entry 3 maps frame 0x7000 user/writable, entry 4 maps frame
0x8000 user/read-only, entry 5 maps 0x9000 supervisor/writable; directory entry 1 is a 4 MiB page at 0x00C00000. -/
def exWords : List (Addr × Word) :=
  [(0x1000#32, 0x2007#32), (0x1004#32, 0x00C00083#32), (0x200C#32, 0x7007#32), (0x2010#32, 0x8005#32), (0x2014#32, 0x9003#32)]
def exMem : Mem := exWords.foldl (fun m p => wr32 m p.1 p.2) (fun _ => 0#8)
def exCtl (cpl : BitVec 2) (wp : Bool) : Ctl :=
  { cr0 := if wp then 0x80010001#32 else 0x80000001#32, cr3 := 0x1000#32, cr4 := 0x90#32, cpl := cpl }

/-- C15. With CR0.PG clear every translation succeeds with the address itself and changes no memory. -/
theorem C15_identity_without_paging (fix : Addr → Addr) (c : Ctl) (m : Mem) (va : Addr) (wr pr sc : Bool) (h : pagingOn c = false) :
    (∃ prot, walk fix c m va wr pr sc = (.ok va prot, m)) ∧ (∃ info, query fix c m va wr pr = .ok (fix va) info) := by
  have hpg : c.cr0 &&& 0x80000000#32 = 0#32 := by
    rw [bit_test c.cr0 _ 31 (by decide) (by omega)]
    simpa [pagingOn] using h
  unfold walk query
  rw [if_pos hpg, if_pos hpg]
  exact ⟨⟨_, rfl⟩, ⟨_, rfl⟩⟩

example : pagingOn { cr0 := 1#32, cr3 := 0x1000#32, cr4 := 0#32, cpl := 3#2 } = false := by decide

/-- The one combination where the code departs from the architecture: a supervisor write with CR0.WP set to a supervisor page whose
directory and table entries disagree about R/W. -/
def MixedWrite (fix : Addr → Addr) (c : Ctl) (m : Mem) (va : Addr) (wr pr : Bool) : Prop :=
  writeProtect c = true ∧ wr = true ∧ userAccess c pr = false ∧
    ∃ mp, mapping fix c m va = some mp ∧ mp.user = false ∧ writable (word m mp.pdeAddr) ≠ writable (word m mp.leafAddr)

theorem granted_eq_allowed {fix : Addr → Addr} {c : Ctl} {m : Mem} {va : Addr} {wr pr : Bool} {mp : Mapping}
    (h : mapping fix c m va = some mp) (hm : ¬ MixedWrite fix c m va wr pr) :
    granted (writeProtect c) mp.user (codeWritable m mp) (userAccess c pr) wr = allowed (writeProtect c) mp (userAccess c pr) wr := by
  have hw : mp.writable = (writable (word m mp.pdeAddr) && writable (word m mp.leafAddr)) := by
    unfold mapping at h
    simp only at h
    split at h
    · split at h
      · simp only [Option.some.injEq] at h; subst h; simp
      · split at h
        · simp only [Option.some.injEq] at h; subst h; rfl
        · simp at h
    · simp at h
  have hm' : ¬ (writeProtect c = true ∧ wr = true ∧ userAccess c pr = false ∧ mp.user = false ∧
      writable (word m mp.pdeAddr) ≠ writable (word m mp.leafAddr)) :=
    fun hh => hm ⟨hh.1, hh.2.1, hh.2.2.1, mp, h, hh.2.2.2⟩
  unfold granted allowed codeWritable
  rw [hw]
  revert hm'
  cases writeProtect c <;> cases wr <;> cases userAccess c pr <;> cases mp.user <;> cases writable (word m mp.pdeAddr) <;>
    cases writable (word m mp.leafAddr) <;> simp

/-- C16. With paging on, an access is granted exactly when the page is mapped and the combined rights allow it.
Partial: not for the combination `MixedWrite`, where the code is wrong (`C16_supervisor_write_violation`). -/
theorem C16_granted_iff_allowed_partial (fix : Addr → Addr) (c : Ctl) (m : Mem) (va : Addr) (wr pr sc : Bool) (hp : pagingOn c = true)
    (hm : ¬ MixedWrite fix c m va wr pr) :
    (∃ phys prot, (walk fix c m va wr pr sc).1 = .ok phys prot) ↔
      ∃ mp, mapping fix c m va = some mp ∧ allowed (writeProtect c) mp (userAccess c pr) wr = true := by
  cases h : mapping fix c m va with
  | none => rw [walk_none hp h]; simp
  | some mp =>
    have hg := granted_eq_allowed h hm
    obtain ⟨h0, h1⟩ := walk_some (wr := wr) (pr := pr) (sc := sc) hp h
    rw [hg] at h0 h1
    cases ha : allowed (writeProtect c) mp (userAccess c pr) wr with
    | false => rw [h0 ha]; simp [ha]
    | true =>
      obtain ⟨m', e, _⟩ := h1 ha
      rw [e]; simp [ha]

/-- C16 for accesses with user privilege: no exception. -/
theorem C16_user_access_iff_allowed (fix : Addr → Addr) (c : Ctl) (m : Mem) (va : Addr) (wr pr sc : Bool) (hp : pagingOn c = true)
    (hu : userAccess c pr = true) :
    (∃ phys prot, (walk fix c m va wr pr sc).1 = .ok phys prot) ↔
      ∃ mp, mapping fix c m va = some mp ∧ mp.user = true ∧ (wr = true → mp.writable = true) := by
  rw [C16_granted_iff_allowed_partial fix c m va wr pr sc hp (fun h => by have := h.2.2.1; rw [hu] at this; simp at this)]
  simp only [hu, allowed]
  constructor
  · rintro ⟨mp, h, ha⟩; exact ⟨mp, h, by revert ha; cases mp.user <;> cases mp.writable <;> cases wr <;> simp⟩
  · rintro ⟨mp, h, ha⟩; exact ⟨mp, h, by revert ha; cases mp.user <;> cases mp.writable <;> cases wr <;> simp⟩

example : pagingOn (exCtl 3#2 true) = true ∧ userAccess (exCtl 3#2 true) false = true := by decide
example : (walk id (exCtl 3#2 true) exMem 0x3123#32 true false false).1 = .ok 0x7123#32 0x20F#32 := by decide
example : (walk id (exCtl 3#2 true) exMem 0x4123#32 true false false).1 = .fault 0x4123#32 7#8 := by decide
example : (walk id (exCtl 0#2 false) exMem 0x4123#32 true false false).1 = .ok 0x8123#32 0x207#32 := by decide

/-- C16: an access that is not granted raises #PF and writes nothing; no assertion of the code fails. -/
theorem C16_denied_changes_nothing (fix : Addr → Addr) (c : Ctl) (m : Mem) (va : Addr) (wr pr sc : Bool)
    (h : ¬ ∃ phys prot, (walk fix c m va wr pr sc).1 = .ok phys prot) :
    ∃ code, walk fix c m va wr pr sc = (.fault va code, m) := by
  cases hp : pagingOn c with
  | false =>
    obtain ⟨⟨prot, e⟩, _⟩ := C15_identity_without_paging fix c m va wr pr sc hp
    exact absurd ⟨va, prot, by rw [e]⟩ h
  | true =>
    cases hmp : mapping fix c m va with
    | none => exact ⟨_, walk_none hp hmp⟩
    | some mp =>
      obtain ⟨h0, h1⟩ := walk_some (wr := wr) (pr := pr) (sc := sc) hp hmp
      cases hg : granted (writeProtect c) mp.user (codeWritable m mp) (userAccess c pr) wr with
      | false => exact ⟨_, h0 hg⟩
      | true =>
        obtain ⟨m', e, _⟩ := h1 hg
        exact absurd ⟨_, _, by rw [e]⟩ h

example : ¬ ∃ phys prot, (walk id (exCtl 3#2 true) exMem 0x5000#32 false false false).1 = .ok phys prot := by
  have : (walk id (exCtl 3#2 true) exMem 0x5000#32 false false false).1 = .fault 0x5000#32 5#8 := by decide
  rw [this]; simp

/-- C16 is violated: with CR0.WP set, a supervisor page whose directory entry is writable and whose table entry is read-only can be
written by the supervisor. -/
theorem C16_supervisor_write_violation :
    ∃ (c : Ctl) (m : Mem) (va : Addr) (mp : Mapping), pagingOn c = true ∧ mapping id c m va = some mp ∧
      allowed (writeProtect c) mp (userAccess c false) true = false ∧
      ∃ prot, (walk id c m va true false false).1 = .ok mp.phys prot :=
  ⟨exCtl 0#2 true, wr32 (wr32 (fun _ => 0#8) 0x1000#32 0x2003#32) 0x200C#32 0x7001#32, 0x3123#32, _, by decide, rfl, by decide, 0x203#32, by decide⟩

/-- The query used by the api takes the same decisions and returns the same (corrected) address, and it changes no memory (it returns
none). -/
theorem C16_query_agrees (fix : Addr → Addr) (c : Ctl) (m : Mem) (va : Addr) (wr pr sc : Bool) :
    (∀ a code, query fix c m va wr pr = .fault a code ↔ (walk fix c m va wr pr sc).1 = .fault a code) ∧
    (∀ p, (∃ info, query fix c m va wr pr = .ok p info) ↔ ∃ q prot, (walk fix c m va wr pr sc).1 = .ok q prot ∧ fix q = p) := by
  unfold query walk
  simp only
  split
  · simp
  split
  · simp
  split
  · simp only [privOf_eq, memAccess_eq, checkPageAccess_eq, genAccessMask_eq]
    split <;> simp_all
  split
  · simp
  · have hti : ∀ (a b : Bool), ((2 * b2n a + 4 * b2n b : Nat) : Int).toNat = 2 * b2n a + 4 * b2n b := by
      intro a b; cases a <;> cases b <;> decide
    simp only [privOf_eq, memAccess_eq, checkPagePrivilege_eq, hti, checkPageAccess_eq, genAccessMask_eq]
    split <;> simp_all

example : query id (exCtl 3#2 true) exMem 0x3123#32 true false = .ok 0x7123#32 7#32 := by decide

/-- C17. The error code of a page fault: bit 0 tells whether all entries were present (a protection violation), bit 1 whether the
access was a write, bit 2 whether the cpu was at privilege level 3 (also for privileged accesses such as descriptor reads); the
other bits are zero; the reported address is the accessed one. -/
theorem C17_page_fault_code (fix : Addr → Addr) (c : Ctl) (m : Mem) (va : Addr) (wr pr sc : Bool) (a : Addr) (code : BitVec 8)
    (h : (walk fix c m va wr pr sc).1 = .fault a code) :
    a = va ∧ code.getLsbD 0 = (mapping fix c m va).isSome ∧ code.getLsbD 1 = wr ∧ code.getLsbD 2 = (c.cpl == 3#2) ∧
      ∀ i, 3 ≤ i → code.getLsbD i = false := by
  have bits : ∀ p : Bool, (errCode c p wr).getLsbD 0 = p ∧ (errCode c p wr).getLsbD 1 = wr ∧
      (errCode c p wr).getLsbD 2 = (c.cpl == 3#2) ∧ ∀ i, 3 ≤ i → (errCode c p wr).getLsbD i = false := by
    intro p
    rw [errCode_eq]
    refine ⟨?_, ?_, ?_, ?_⟩
    · cases p <;> cases wr <;> cases c.cpl == 3#2 <;> decide
    · cases p <;> cases wr <;> cases c.cpl == 3#2 <;> decide
    · cases p <;> cases wr <;> cases c.cpl == 3#2 <;> decide
    · intro i hi
      by_cases h8 : i < 8
      · have : ∀ (a b d : Bool) (k : Fin 8), 3 ≤ k.val → (BitVec.ofNat 8 (b2n a + 2 * b2n b + 4 * b2n d)).getLsbD k.val = false := by decide
        exact this p wr (c.cpl == 3#2) ⟨i, h8⟩ hi
      · exact BitVec.getLsbD_of_ge _ _ (by omega)
  cases hp : pagingOn c with
  | false =>
    obtain ⟨⟨prot, e⟩, _⟩ := C15_identity_without_paging fix c m va wr pr sc hp
    rw [e] at h; simp at h
  | true =>
    cases hmp : mapping fix c m va with
    | none =>
      rw [walk_none hp hmp] at h
      simp only [Walk.fault.injEq] at h
      obtain ⟨rfl, rfl⟩ := h
      exact ⟨rfl, by simpa using (bits false).1, (bits false).2⟩
    | some mp =>
      obtain ⟨h0, h1⟩ := walk_some (wr := wr) (pr := pr) (sc := sc) hp hmp
      cases hg : granted (writeProtect c) mp.user (codeWritable m mp) (userAccess c pr) wr with
      | false =>
        rw [h0 hg] at h
        simp only [Walk.fault.injEq] at h
        obtain ⟨rfl, rfl⟩ := h
        exact ⟨rfl, by simpa using (bits true).1, (bits true).2⟩
      | true =>
        obtain ⟨m', e, _⟩ := h1 hg
        rw [e] at h; simp at h

example : (walk id (exCtl 3#2 true) exMem 0x5000#32 false true false).1 = .ok 0x9000#32 3#32 := by decide
example : (walk id (exCtl 3#2 true) exMem 0x6000#32 false true false).1 = .fault 0x6000#32 4#8 := by decide

/-- C18, the page walk: a granted access sets the accessed bit of the entries it passed, a granted write also the dirty bit of the
entry that maps the page, and no other bit of memory changes. -/
theorem C18_accessed_and_dirty (fix : Addr → Addr) (c : Ctl) (m m' : Mem) (va phys : Addr) (prot : Word) (wr pr sc : Bool)
    (hp : pagingOn c = true) (hf : KeepsWords fix) (h : walk fix c m va wr pr sc = (.ok phys prot, m')) :
    ∃ mp, mapping fix c m va = some mp ∧ Marked m mp wr m' := by
  cases hmp : mapping fix c m va with
  | none => rw [walk_none hp hmp] at h; simp at h
  | some mp =>
    refine ⟨mp, rfl, ?_⟩
    obtain ⟨h0, h1⟩ := walk_some (wr := wr) (pr := pr) (sc := sc) hp hmp
    cases hg : granted (writeProtect c) mp.user (codeWritable m mp) (userAccess c pr) wr with
    | false => rw [h0 hg] at h; simp at h
    | true =>
      obtain ⟨m2, e, hm⟩ := h1 hg
      rw [e] at h
      simp only [Prod.mk.injEq] at h
      obtain ⟨_, rfl⟩ := h
      exact hm hf

example : KeepsWords id := fun a h => h
example : rd32 (walk id (exCtl 3#2 true) exMem 0x3123#32 true false false).2 0x200C#32 = 0x7067#32 ∧
    rd32 (walk id (exCtl 3#2 true) exMem 0x3123#32 true false false).2 0x1000#32 = 0x2027#32 := by decide

/-- C19. A granted access translates to the frame of the page plus the offset in the page (4 KiB, or 4 MiB with CR4.PSE). -/
theorem C19_frame_plus_offset (fix : Addr → Addr) (c : Ctl) (m : Mem) (va phys : Addr) (prot : Word) (wr pr sc : Bool)
    (hp : pagingOn c = true) (h : (walk fix c m va wr pr sc).1 = .ok phys prot) :
    let pde := word m (fix (pdeAt c va))
    let pte := word m (fix (pteAt pde va))
    phys.toNat = if large pde && bigPages c then pde.toNat / 4194304 * 4194304 + va.toNat % 4194304
      else pte.toNat / 4096 * 4096 + va.toNat % 4096 := by
  have glueNat : ∀ (n k : Nat) (hi : BitVec k) (lo : BitVec n), n + k = 32 → (glue n hi lo).toNat = hi.toNat * 2 ^ n + lo.toNat := by
    intro n k hi lo hnk
    unfold glue
    have e : (hi.setWidth 32 <<< n : Addr).toNat = hi.toNat * 2 ^ n := by
      rw [BitVec.toNat_shiftLeft, BitVec.toNat_setWidth, Nat.shiftLeft_eq]
      have h1 : hi.toNat < 2 ^ k := hi.isLt
      have h3 : (2:Nat) ^ k ≤ 2 ^ 32 := Nat.pow_le_pow_right (by decide) (by omega)
      rw [Nat.mod_eq_of_lt (a := hi.toNat) (by omega)]
      apply Nat.mod_eq_of_lt
      calc hi.toNat * 2 ^ n < 2 ^ k * 2 ^ n := by
            exact Nat.mul_lt_mul_of_pos_right h1 (Nat.two_pow_pos n)
        _ = 2 ^ 32 := by rw [← Nat.pow_add]; congr 1; omega
    have e2 : (lo.setWidth 32 : Addr).toNat = lo.toNat := by
      rw [BitVec.toNat_setWidth]
      have h1 : lo.toNat < 2 ^ n := lo.isLt
      have h3 : (2:Nat) ^ n ≤ 2 ^ 32 := Nat.pow_le_pow_right (by decide) (by omega)
      exact Nat.mod_eq_of_lt (by omega)
    rw [BitVec.toNat_or, e, e2]
    have : hi.toNat * 2 ^ n = hi.toNat <<< n := by rw [Nat.shiftLeft_eq]
    rw [this, ← Nat.shiftLeft_add_eq_or_of_lt lo.isLt]
  cases hmp : mapping fix c m va with
  | none => rw [walk_none hp hmp] at h; simp at h
  | some mp =>
    obtain ⟨h0, h1⟩ := walk_some (wr := wr) (pr := pr) (sc := sc) hp hmp
    have hph : phys = mp.phys := by
      cases hg : granted (writeProtect c) mp.user (codeWritable m mp) (userAccess c pr) wr with
      | false => rw [h0 hg] at h; simp at h
      | true =>
        obtain ⟨m2, e, hm⟩ := h1 hg
        rw [e] at h
        simp only [Walk.ok.injEq] at h
        exact h.1.symm
    subst hph
    intro pde pte
    unfold mapping at hmp
    simp only at hmp
    split at hmp
    · split at hmp
      · rename_i hl
        simp only [Option.some.injEq] at hmp; subst hmp
        rw [if_pos hl, glueNat 22 10 _ _ rfl, BitVec.extractLsb'_toNat, BitVec.extractLsb'_toNat, Nat.shiftRight_eq_div_pow, Nat.shiftRight_eq_div_pow]
        have := pde.isLt
        show (pde.toNat / 2 ^ 22) % 2 ^ 10 * 2 ^ 22 + (va.toNat / 2 ^ 0) % 2 ^ 22 = _
        omega
      · rename_i hl
        split at hmp
        · simp only [Option.some.injEq] at hmp; subst hmp
          rw [if_neg hl, glueNat 12 20 _ _ rfl, BitVec.extractLsb'_toNat, BitVec.extractLsb'_toNat, Nat.shiftRight_eq_div_pow, Nat.shiftRight_eq_div_pow]
          have := pte.isLt
          show (pte.toNat / 2 ^ 12) % 2 ^ 20 * 2 ^ 12 + (va.toNat / 2 ^ 0) % 2 ^ 12 = _
          omega
        · simp at hmp
    · simp at hmp

example : (walk id (exCtl 0#2 true) exMem 0x00612345#32 false false false).1 = .ok 0x00E12345#32 3#32 := by decide

end Verif.Paging
