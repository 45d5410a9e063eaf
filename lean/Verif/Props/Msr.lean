import Verif.Model.Msr
import Verif.Lemmas.Bits
/-
C32: model specific registers.
-/
namespace Verif.Msr

/-! ### Specification: the registers of the processor (manual, volume 4, P6 family) that are stored as written -/

/-- The register is one whose written value is to be read back, with its reserved bits. -/
inductive Stored : Nat → BitVec 64 → Prop
  | biosSign : Stored 0x8B 0xFFFFFFFF#64
  | sysCs : Stored 0x174 0xFFFFFFFF00000000#64
  | sysEsp : Stored 0x175 0#64
  | sysEip : Stored 0x176 0#64
  | physBase (n : Nat) : n < 8 → Stored (0x200 + 2 * n) 0xFFFFFFF000000F00#64
  | physMask (n : Nat) : n < 8 → Stored (0x201 + 2 * n) 0xFFFFFFF0000007FF#64
  | fix64 : Stored 0x250 0#64
  | fix16 (n : Nat) : n < 2 → Stored (0x258 + n) 0#64
  | fix4 (n : Nat) : n < 8 → Stored (0x268 + n) 0#64
  | pat : Stored 0x277 0xF8F8F8F8F8F8F8F8#64
  | defType : Stored 0x2FF 0xFFFFFFFFFFFFF300#64

/-- Memory types 2 and 3 are reserved; field `i` of the PAT. -/
def PatField (v : BitVec 64) (i : Nat) (t : Nat) : Prop := v.toNat / 2 ^ (8 * i) % 8 = t

/-- All fields of a value for the PAT are valid (needed for register 0x277 only). -/
def PatOk (e : Nat) (v : BitVec 64) : Prop := e = 0x277 → ∀ i, i < 8 → ¬ PatField v i 2 ∧ ¬ PatField v i 3

/-- The value in EDX:EAX. -/
def pair (r : Regs) : BitVec 64 := BitVec.ofNat 64 (r.edx.toNat * 2 ^ 32 + r.eax.toNat)

/-! ### Lemmas -/

theorem pair_eq (r : Regs) : (r.edx.setWidth 64 <<< 32) ||| r.eax.setWidth 64 = pair r := by
  apply BitVec.eq_of_toNat_eq
  have h1 := r.edx.isLt
  have h2 := r.eax.isLt
  unfold pair
  rw [BitVec.toNat_or, BitVec.toNat_shiftLeft, BitVec.toNat_setWidth, BitVec.toNat_setWidth, BitVec.toNat_ofNat,
    Nat.mod_eq_of_lt (show r.edx.toNat < 2 ^ 64 by omega), Nat.mod_eq_of_lt (show r.eax.toNat < 2 ^ 64 by omega),
    Nat.shiftLeft_eq, Nat.mod_eq_of_lt (show r.edx.toNat * 2 ^ 32 < 2 ^ 64 by omega),
    Nat.mod_eq_of_lt (show r.edx.toNat * 2 ^ 32 + r.eax.toNat < 2 ^ 64 by omega),
    ← Nat.shiftLeft_eq, Nat.shiftLeft_add_eq_or_of_lt h2]

theorem split_pair (r : Regs) : ((pair r) >>> 32).setWidth 32 = r.edx ∧ (pair r).setWidth 32 = r.eax := by
  have h1 := r.edx.isLt
  have h2 := r.eax.isLt
  constructor
  · apply BitVec.eq_of_toNat_eq
    unfold pair
    rw [BitVec.toNat_setWidth, BitVec.toNat_ushiftRight, BitVec.toNat_ofNat, Nat.shiftRight_eq_div_pow]
    omega
  · apply BitVec.eq_of_toNat_eq
    unfold pair
    rw [BitVec.toNat_setWidth, BitVec.toNat_ofNat]
    omega

theorem patField_iff (v : BitVec 64) (i t : Nat) (ht : t < 8) :
    ((v >>> (i * 8)) &&& 7#64 == BitVec.ofNat 64 t) = true ↔ PatField v i t := by
  rw [beq_iff_eq]
  unfold PatField
  rw [← BitVec.toNat_inj, BitVec.toNat_and, BitVec.toNat_ushiftRight, Nat.shiftRight_eq_div_pow,
    show (BitVec.ofNat 64 t).toNat = t from by rw [BitVec.toNat_ofNat]; omega, Nat.mul_comm i 8]
  have := Nat.and_two_pow_sub_one_eq_mod (v.toNat / 2 ^ (8 * i)) 3
  rw [show (7#64).toNat = 2 ^ 3 - 1 from rfl, this]

theorem patRes_iff (v : BitVec 64) (i : Nat) : patRes v i = true ↔ PatField v i 2 ∨ PatField v i 3 := by
  unfold patRes
  rw [Bool.or_eq_true]
  exact or_congr (patField_iff v i 2 (by omega)) (patField_iff v i 3 (by omega))

theorem sel_base (n : Nat) (h : n < 8) : sel (0x200 + 2 * n) = .base n := by
  have : ∀ k : Fin 8, sel (0x200 + 2 * k.val) = .base k.val := by decide
  exact this ⟨n, h⟩
theorem sel_mask (n : Nat) (h : n < 8) : sel (0x201 + 2 * n) = .mask n := by
  have : ∀ k : Fin 8, sel (0x201 + 2 * k.val) = .mask k.val := by decide
  exact this ⟨n, h⟩
theorem sel_fix16 (n : Nat) (h : n < 2) : sel (0x258 + n) = .fixed (1 + n) := by
  have : ∀ k : Fin 2, sel (0x258 + k.val) = .fixed (1 + k.val) := by decide
  exact this ⟨n, h⟩
theorem sel_fix4 (n : Nat) (h : n < 8) : sel (0x268 + n) = .fixed (3 + n) := by
  have : ∀ k : Fin 8, sel (0x268 + k.val) = .fixed (3 + k.val) := by decide
  exact this ⟨n, h⟩

theorem sub_and_three (n : Nat) : n &&& 3 = n % 4 := Nat.and_two_pow_sub_one_eq_mod n 2

/-- No register has a number of 0x428 or more. -/
theorem sel_big (e : Nat) (h : 1064 ≤ e) : sel e = .unknown := by
  have hne : ∀ n, n < 1064 → ¬ e = n := by omega
  unfold sel
  rw [if_neg (hne _ (by decide)), if_neg (hne _ (by decide)), if_neg (hne _ (by decide)), if_neg (hne _ (by decide)),
    if_neg (hne _ (by decide)), if_neg (hne _ (by decide)), if_neg (hne _ (by decide)), if_neg (hne _ (by decide)),
    if_neg (hne _ (by decide)), if_neg (hne _ (by decide)), if_neg (hne _ (by decide)), if_neg (by omega), if_neg (by omega),
    if_neg (hne _ (by decide)), if_neg (by omega), if_neg (by omega), if_neg (hne _ (by decide)), if_neg (hne _ (by decide)),
    if_neg (by omega)]

/-- The index is that of an element of phys_var[8], phys_fixed[11], mca_banks[10][4]. -/
def InBounds : Sel → Bool
  | .base i | .mask i => i < 8
  | .fixed i => i < 11
  | .bank i j => i < 10 && j < 4
  | _ => true

/-- C32: whatever the register number, only existing array elements are used. -/
theorem C32_in_bounds (e : Nat) : InBounds (sel e) = true := by
  by_cases h : e < 1064
  · have key : ∀ k : Fin 1064, InBounds (sel k.val) = true := by decide +kernel
    exact key ⟨e, h⟩
  · rw [sel_big e (by omega)]; rfl

/-- The register number of a selection. -/
def num : Sel → Nat
  | .apicBase => 0x1B | .ebl => 0x2A | .updtTrig => 0x79 | .biosSign => 0x8B | .mtrrCap => 0xFE | .sysCs => 0x174
  | .sysEsp => 0x175 | .sysEip => 0x176 | .mcgCap => 0x179 | .mcgStatus => 0x17A | .mcgCtl => 0x17B
  | .base i => 0x200 + 2 * i | .mask i => 0x201 + 2 * i
  | .fixed i => if i = 0 then 0x250 else if i < 3 then 0x257 + i else 0x265 + i
  | .pat => 0x277 | .defType => 0x2FF | .bank i j => 0x400 + 4 * i + j | .unknown => 0

theorem num_sel (e : Nat) (h : sel e ≠ .unknown) : num (sel e) = e := by
  by_cases hb : e < 1064
  · have key : ∀ k : Fin 1064, sel k.val ≠ .unknown → num (sel k.val) = k.val := by decide +kernel
    exact key ⟨e, hb⟩ h
  · exact absurd (sel_big e (by omega)) h

/-- Different register numbers select different storage. -/
theorem sel_inj (e e' : Nat) (h : sel e = sel e') (hu : sel e ≠ .unknown) : e = e' := by
  rw [← num_sel e hu, h, num_sel e' (by rw [← h]; exact hu)]

/-! ### Writing and reading back -/

theorem set_same (f : Nat → BitVec 64) (i : Nat) (v : BitVec 64) : set f i v i = v := by simp [set]
theorem set_other (f : Nat → BitVec 64) (i j : Nat) (v : BitVec 64) (h : j ≠ i) : set f i v j = f j := by simp [set, h]

/-- Storage of a selection: what a read of that selection returns. -/
def readSel (s : St) : Sel → Option (BitVec 64)
  | .apicBase => some 0x100#64
  | .ebl => some s.ebl
  | .updtTrig => some 0#64
  | .biosSign => some s.biosSign
  | .mtrrCap => some (8#64 ||| 0x100#64 ||| 0x400#64)
  | .sysCs => some (s.sysCs &&& 0xFFFFFFFF#64)
  | .sysEsp => some s.sysEsp
  | .sysEip => some s.sysEip
  | .mcgCap => some s.mcgCap
  | .mcgStatus => some s.mcgStatus
  | .mcgCtl => some (if s.mcgCap &&& 0x100#64 ≠ 0#64 then s.mcgCtl else 0#64)
  | .base i => some (s.base i)
  | .mask i => some (s.mask i)
  | .fixed i => some (s.fixed i)
  | .pat => some s.pat
  | .defType => some s.defType
  | .bank i j => some (s.bank i j)
  | .unknown => none

theorem read_eq (s : St) (e : Nat) : read s e = readSel s (sel e) := by
  unfold read
  cases sel e <;> rfl

/-- A successful write changes only what is read from the register written. -/
theorem write_frame (s s' : St) (e : Nat) (v : BitVec 64) (h : write s e v = .ok s') (x : Sel) (hx : x ≠ sel e) :
    readSel s' x = readSel s x := by
  unfold write at h
  generalize sel e = y at h hx
  cases y <;> simp only at h
  case apicBase => split at h <;> simp only [Res.ok.injEq, reduceCtorEq] at h; rw [← h]
  case ebl => split at h <;> simp only [Res.ok.injEq, reduceCtorEq] at h; rw [← h]; cases x <;> first | rfl | exact absurd rfl hx
  case updtTrig => injection h with h; rw [← h]
  case biosSign => split at h <;> simp only [Res.ok.injEq, reduceCtorEq] at h; rw [← h]; cases x <;> first | rfl | exact absurd rfl hx
  case mtrrCap => injection h
  case sysCs => injection h with h; rw [← h]; cases x <;> first | rfl | exact absurd rfl hx
  case sysEsp => injection h with h; rw [← h]; cases x <;> first | rfl | exact absurd rfl hx
  case sysEip => injection h with h; rw [← h]; cases x <;> first | rfl | exact absurd rfl hx
  case mcgCap => injection h with h; rw [← h]
  case mcgStatus => injection h
  case mcgCtl =>
    split at h <;> simp only [Res.ok.injEq] at h <;> rw [← h]
    cases x <;> first | rfl | exact absurd rfl hx
  case base i =>
    split at h <;> simp only [Res.ok.injEq, reduceCtorEq] at h
    rw [← h]; cases x <;> first | rfl | skip
    rename_i j
    show some (set s.base i v j) = _
    rw [set_other _ _ _ _ (fun hc => hx (by rw [hc]))]; rfl
  case mask i =>
    split at h <;> simp only [Res.ok.injEq, reduceCtorEq] at h
    rw [← h]; cases x <;> first | rfl | skip
    rename_i j
    show some (set s.mask i v j) = _
    rw [set_other _ _ _ _ (fun hc => hx (by rw [hc]))]; rfl
  case fixed i =>
    injection h with h
    rw [← h]; cases x <;> first | rfl | skip
    rename_i j
    show some (set s.fixed i v j) = _
    rw [set_other _ _ _ _ (fun hc => hx (by rw [hc]))]; rfl
  case pat =>
    split at h
    · injection h
    · split at h <;> simp only [Res.ok.injEq, reduceCtorEq] at h
      rw [← h]; cases x <;> first | rfl | exact absurd rfl hx
  case defType => split at h <;> simp only [Res.ok.injEq, reduceCtorEq] at h; rw [← h]; cases x <;> first | rfl | exact absurd rfl hx
  case bank i j =>
    split at h
    · injection h with h; rw [← h]
    · split at h <;> simp only [Res.ok.injEq, reduceCtorEq] at h
      rw [← h]; cases x <;> first | rfl | skip
      rename_i a b
      show some (if a = i ∧ b = j then v else s.bank a b) = some (s.bank a b)
      rw [if_neg]
      rintro ⟨h1, h2⟩
      exact hx (by rw [h1, h2])
  case unknown => injection h

/-- C32: a successful WRMSR changes no register but the one named. -/
theorem C32_frame (s s' : St) (e e' : Nat) (v : BitVec 64) (h : write s e v = .ok s') (hne : e' ≠ e) : read s' e' = read s e' := by
  rw [read_eq, read_eq]
  by_cases hu : sel e' = .unknown
  · rw [hu]; rfl
  · exact write_frame s s' e v h _ (fun hc => hne (sel_inj _ _ hc hu))

theorem write_stored (s : St) (e : Nat) (v m : BitVec 64) (hs : Stored e m) (hv : v &&& m = 0#64) (hp : PatOk e v) :
    ∃ s', write s e v = .ok s' ∧ read s' e = some v := by
  cases hs with
  | biosSign => refine ⟨{ s with biosSign := v }, ?_, rfl⟩; show (if _ then _ else _) = _; rw [if_neg (by simp [hv])]
  | sysCs =>
    have hlow : v &&& 0xFFFFFFFF#64 = v := by
      have e1 : v = (v &&& 0xFFFFFFFF#64) ||| (v &&& 0xFFFFFFFF00000000#64) := by bits64
      rw [hv] at e1
      have e2 : (v &&& 0xFFFFFFFF#64) ||| 0#64 = v &&& 0xFFFFFFFF#64 := BitVec.or_zero
      rw [e2] at e1; exact e1.symm
    refine ⟨{ s with sysCs := v &&& 0xFFFFFFFF#64 }, rfl, ?_⟩
    show some (v &&& 0xFFFFFFFF#64 &&& 0xFFFFFFFF#64) = some v
    rw [hlow, hlow]
  | sysEsp => exact ⟨{ s with sysEsp := v }, rfl, rfl⟩
  | sysEip => exact ⟨{ s with sysEip := v }, rfl, rfl⟩
  | physBase n hn =>
    refine ⟨{ s with base := set s.base n v }, ?_, ?_⟩
    · unfold write; rw [sel_base n hn]; show (if _ then _ else _) = _; rw [if_neg (by simp [hv])]
    · rw [read_eq, sel_base n hn]; exact congrArg some (set_same _ _ _)
  | physMask n hn =>
    refine ⟨{ s with mask := set s.mask n v }, ?_, ?_⟩
    · unfold write; rw [sel_mask n hn]; show (if _ then _ else _) = _; rw [if_neg (by simp [hv])]
    · rw [read_eq, sel_mask n hn]; exact congrArg some (set_same _ _ _)
  | fix64 => exact ⟨{ s with fixed := set s.fixed 0 v }, rfl, congrArg some (set_same s.fixed 0 v)⟩
  | fix16 n hn =>
    refine ⟨{ s with fixed := set s.fixed (1 + n) v }, ?_, ?_⟩
    · unfold write; rw [sel_fix16 n hn]
    · rw [read_eq, sel_fix16 n hn]; exact congrArg some (set_same _ _ _)
  | fix4 n hn =>
    refine ⟨{ s with fixed := set s.fixed (3 + n) v }, ?_, ?_⟩
    · unfold write; rw [sel_fix4 n hn]
    · rw [read_eq, sel_fix4 n hn]; exact congrArg some (set_same _ _ _)
  | pat =>
    refine ⟨{ s with pat := v }, ?_, rfl⟩
    show (if _ then _ else if _ then _ else _) = _
    rw [if_neg (by simp [hv]), if_neg]
    intro hc
    rw [List.any_eq_true] at hc
    obtain ⟨i, hi, hr⟩ := hc
    have hi8 := List.mem_range.mp hi
    rcases (patRes_iff v i).mp hr with h | h
    · exact (hp rfl i (by omega)).1 h
    · exact (hp rfl i (by omega)).2 h
  | defType => refine ⟨{ s with defType := v }, ?_, rfl⟩; show (if _ then _ else _) = _; rw [if_neg (by simp [hv])]

/-- C32: at CPL 0, WRMSR of a value without reserved bits to a register that stores it succeeds, RDMSR
then returns the same EDX:EAX, and every other register reads as before. Missing: the registers
0x1B, 0x2A, 0x179-0x17B and the machine check banks (see the theorems below). -/
theorem C32_roundtrip_partial (r : Regs) (s : St) (m : BitVec 64) (hs : Stored r.ecx.toNat m)
    (hv : pair r &&& m = 0#64) (hp : PatOk r.ecx.toNat (pair r)) :
    ∃ s', wrmsr 0#2 r s = .ok r s' ∧ rdmsr 0#2 { r with eax := 0#32, edx := 0#32 } s' = .ok r s' ∧
      ∀ e', e' ≠ r.ecx.toNat → read s' e' = read s e' := by
  obtain ⟨s', hw, hr⟩ := write_stored s r.ecx.toNat (pair r) m hs hv hp
  refine ⟨s', ?_, ?_, fun e' hne => C32_frame s s' _ e' _ hw hne⟩
  · unfold wrmsr
    rw [if_neg (by decide), pair_eq, hw]
  · unfold rdmsr
    rw [if_neg (by decide)]
    simp only [hr, (split_pair r).1, (split_pair r).2]

/-- C32: reserved bits raise #GP (and nothing is written: the outcome carries no new state). -/
theorem C32_reserved (r : Regs) (s : St) (m : BitVec 64) (hs : Stored r.ecx.toNat m) (hcs : r.ecx.toNat ≠ 0x174)
    (hv : pair r &&& m ≠ 0#64) : wrmsr 0#2 r s = .gp := by
  have key : write s r.ecx.toNat (pair r) = .gp := by
    revert hs hcs
    generalize r.ecx.toNat = e
    intro hs hcs
    cases hs with
    | biosSign => show (if _ then _ else _) = _; rw [if_pos hv]
    | sysCs => exact absurd rfl hcs
    | sysEsp => exact absurd (by simp) hv
    | sysEip => exact absurd (by simp) hv
    | physBase n hn => unfold write; rw [sel_base n hn]; show (if _ then _ else _) = _; rw [if_pos hv]
    | physMask n hn => unfold write; rw [sel_mask n hn]; show (if _ then _ else _) = _; rw [if_pos hv]
    | fix64 => exact absurd (by simp) hv
    | fix16 n hn => exact absurd (by simp) hv
    | fix4 n hn => exact absurd (by simp) hv
    | pat => show (if _ then _ else _) = _; rw [if_pos hv]
    | defType => show (if _ then _ else _) = _; rw [if_pos hv]
  unfold wrmsr
  rw [if_neg (by decide), pair_eq, key]

/-- C32: a reserved memory type in one of the first seven fields of the PAT raises #GP. Missing: the
eighth field (C32_pat_violation). -/
theorem C32_pat_partial (r : Regs) (s : St) (i : Nat) (he : r.ecx = 0x277#32) (hi : i < 7)
    (hv : PatField (pair r) i 2 ∨ PatField (pair r) i 3) : wrmsr 0#2 r s = .gp := by
  have hn : r.ecx.toNat = 0x277 := by rw [he]; rfl
  have key : write s r.ecx.toNat (pair r) = .gp := by
    unfold write
    rw [hn, show sel 0x277 = .pat from rfl]
    simp only
    split
    · rfl
    · rw [if_pos]
      rw [List.any_eq_true]
      exact ⟨i, List.mem_range.mpr hi, (patRes_iff _ i).mpr hv⟩
  unfold wrmsr
  rw [if_neg (by decide), pair_eq, key]

/-- C32: both instructions raise #GP outside CPL 0, and RDMSR never changes a register. -/
theorem C32_privilege (cpl : BitVec 2) (r : Regs) (s : St) (h : cpl ≠ 0#2) : wrmsr cpl r s = .gp ∧ rdmsr cpl r s = .gp := by
  unfold wrmsr rdmsr
  rw [if_pos h, if_pos h]; exact ⟨rfl, rfl⟩
theorem C32_read_only (cpl : BitVec 2) (r r' : Regs) (s s' : St) (h : rdmsr cpl r s = .ok r' s') : s' = s ∧ r'.ecx = r.ecx := by
  unfold rdmsr at h
  split at h
  · injection h
  · split at h
    · injection h
    · injection h with h1 h2; rw [← h1, ← h2]; exact ⟨rfl, rfl⟩

/-- C32: EBL_CR_POWERON: an accepted write changes exactly the writable bits. -/
theorem C32_ebl (s s' : St) (v : BitVec 64) (h : write s 0x2A v = .ok s') (i : Nat) :
    s'.ebl.getLsbD i = if (0x40000DE#64).getLsbD i then v.getLsbD i else s.ebl.getLsbD i := by
  change (if v &&& 0xFFFFFFFFF0000821#64 ≠ 0#64 then Res.gp
      else .ok { s with ebl := (s.ebl &&& ~~~0x40000DE#64) ||| (v &&& 0x40000DE#64) }) = .ok s' at h
  split at h
  · injection h
  · injection h with h
    rw [← h]
    show ((s.ebl &&& ~~~0x40000DE#64) ||| (v &&& 0x40000DE#64)).getLsbD i = _
    by_cases hi : i < 64
    · rw [BitVec.getLsbD_or, BitVec.getLsbD_and, BitVec.getLsbD_and, BitVec.getLsbD_not]
      cases (0x40000DE#64).getLsbD i <;> simp [hi]
    · rw [BitVec.getLsbD_of_ge _ _ (by omega), BitVec.getLsbD_of_ge v _ (by omega), BitVec.getLsbD_of_ge s.ebl _ (by omega)]; simp

/-- C32: machine check registers: accepted values are stored, others ignored (MCi_CTL) or #GP. -/
theorem C32_mca (s : St) (i j : Nat) (hi : i < 10) (hj : j < 4) (v : BitVec 64) :
    (v = 0#64 ∨ (j = 0 ∧ v = ~~~0#64) → ∃ s', write s (0x400 + 4 * i + j) v = .ok s' ∧ read s' (0x400 + 4 * i + j) = some v) ∧
    (j = 0 → v ≠ 0#64 → v ≠ ~~~0#64 → write s (0x400 + 4 * i + j) v = .ok s) ∧
    (j ≠ 0 → v ≠ 0#64 → write s (0x400 + 4 * i + j) v = .gp) := by
  have hsel : sel (0x400 + 4 * i + j) = .bank i j := by
    have : ∀ a : Fin 10, ∀ b : Fin 4, sel (0x400 + 4 * a.val + b.val) = .bank a.val b.val := by decide +kernel
    exact this ⟨i, hi⟩ ⟨j, hj⟩
  have hw : write s (0x400 + 4 * i + j) v = if j = 0 ∧ v ≠ ~~~0#64 ∧ v ≠ 0#64 then .ok s
      else if j ≠ 0 ∧ v ≠ 0#64 then .gp
      else .ok { s with bank := fun a b => if a = i ∧ b = j then v else s.bank a b } := by
    unfold write; rw [hsel]
  refine ⟨fun h => ⟨{ s with bank := fun a b => if a = i ∧ b = j then v else s.bank a b }, ?_, ?_⟩, fun h1 h2 h3 => ?_, fun h1 h2 => ?_⟩
  · rw [hw, if_neg, if_neg]
    · rintro ⟨h1, h2⟩
      rcases h with h | h
      · exact h2 h
      · exact h1 h.1
    · rintro ⟨_, h1, h2⟩
      rcases h with h | h
      · exact h2 h
      · exact h1 h.2
  · rw [read_eq, hsel]; show some (if i = i ∧ j = j then v else _) = _; rw [if_pos ⟨rfl, rfl⟩]
  · rw [hw, if_pos ⟨h1, h3, h2⟩]
  · rw [hw, if_neg (fun hc => h1 hc.1), if_pos ⟨h1, h2⟩]

/-! ### What goes wrong -/

/-- C32, violation: the eighth field of the PAT accepts a reserved memory type. -/
theorem C32_pat_violation (s : St) :
    PatField 0x0300000000000000#64 7 3 ∧ write s 0x277 0x0300000000000000#64 = .ok { s with pat := 0x0300000000000000#64 } := by
  constructor
  · unfold PatField; decide
  · rfl

/-- C32, violation: IA32_MCG_STATUS rejects every value, also zero. -/
theorem C32_mcg_status_violation (s : St) (v : BitVec 64) : write s 0x17A v = .gp := rfl

/-- C32, violation: after reset, writing back the value just read from EBL_CR_POWERON raises #GP. -/
theorem C32_ebl_violation : ∃ v, read reset 0x2A = some v ∧ write reset 0x2A v = .gp := by
  refine ⟨0xC5040000#64, rfl, ?_⟩
  unfold write
  rw [show sel 0x2A = .ebl from rfl]
  simp only
  rw [if_pos (by decide)]

/-- C32, violation: IA32_APIC_BASE ignores what is written. -/
theorem C32_apic_violation (s : St) : write s 0x1B 0xFEE00800#64 = .ok s ∧ read s 0x1B = some 0x100#64 := by
  refine ⟨?_, rfl⟩
  unfold write
  rw [show sel 0x1B = .apicBase from rfl]
  simp only
  rw [if_neg (by decide)]

/-- C32, violation: a register that is not implemented aborts the emulator instead of raising #GP, for
instance 0x10 (the time stamp counter). -/
theorem C32_unknown_violation (s : St) (v : BitVec 64) (e : Nat) (h : 0x428 ≤ e ∨ e = 0x10) :
    read s e = none ∧ write s e v = .abort := by
  have hs : sel e = .unknown := by
    rcases h with h | h
    · exact sel_big e h
    · rw [h]; rfl
  rw [read_eq, hs]
  refine ⟨rfl, ?_⟩
  unfold write; rw [hs]

-- Concrete cases.
example : Stored (0x203#32 : BitVec 32).toNat 0xFFFFFFF0000007FF#64 := Stored.physMask 1 (by omega)
example : pair { eax := 0xF8000800#32, ecx := 0x203#32, edx := 0xF#32 } &&& 0xFFFFFFF0000007FF#64 = 0#64 := by decide +kernel
example : PatOk 0x203 0#64 := by intro h; exact absurd h (by decide)
example : PatOk 0x277 0x0007040600070406#64 := by
  intro _ i hi
  have : ∀ k : Fin 8, ¬ PatField 0x0007040600070406#64 k.val 2 ∧ ¬ PatField 0x0007040600070406#64 k.val 3 := by
    unfold PatField; decide
  exact this ⟨i, hi⟩
example : PatField (pair { eax := 0x300#32, ecx := 0x277#32, edx := 0#32 }) 1 3 := by unfold PatField; decide +kernel

/-- C32: the read-only registers after any history of writes from reset: APIC_BASE shows a disabled local APIC of the boot processor,
MTRR_CAP 8 variable ranges, fixed ranges and write combining, MCG_CAP 10 banks, a control register and the extended flag; the banks
MCG_CAP announces are exactly those that exist. -/
theorem C32_caps (l : List (Nat × BitVec 64)) (s : St)
    (h : l.foldlM (m := Option) (fun s (w : Nat × BitVec 64) => match write s w.1 w.2 with | .ok s' => some s' | .gp => some s | .abort => none) reset = some s) :
    read s 0x1B = some 0x100#64 ∧ read s 0xFE = some 0x508#64 ∧ read s 0x179 = some 0x100010A#64 ∧
    ∀ i j, j < 4 → ((read s (0x400 + 4 * i + j)).isSome ↔ i < ((0x100010A#64).setWidth 8).toNat) := by
  have cap : ∀ (s s' : St) (e : Nat) (v : BitVec 64), write s e v = .ok s' → s'.mcgCap = s.mcgCap := by
    intro s s' e v hw
    unfold write at hw
    split at hw <;> (try split at hw) <;> (try split at hw) <;> (try split at hw) <;> first | (cases hw; rfl) | cases hw
  have inv : ∀ (l : List (Nat × BitVec 64)) (s0 : St), s0.mcgCap = 0x100010A#64 →
      l.foldlM (m := Option) (fun s (w : Nat × BitVec 64) => match write s w.1 w.2 with | .ok s' => some s' | .gp => some s | .abort => none) s0 = some s →
      s.mcgCap = 0x100010A#64 := by
    intro l
    induction l with
    | nil => intro s0 h0 h; cases h; exact h0
    | cons w l ih =>
      intro s0 h0 h
      rw [List.foldlM_cons] at h
      cases hw : write s0 w.1 w.2 with
      | ok s1 => rw [hw] at h; exact ih s1 ((cap _ _ _ _ hw).trans h0) h
      | gp => rw [hw] at h; exact ih s0 h0 h
      | abort => rw [hw] at h; cases h
  have hc := inv l reset (by decide) h
  refine ⟨rfl, rfl, ?_, ?_⟩
  · show some s.mcgCap = _; rw [hc]
  · intro i j hj
    rw [show ((0x100010A#64).setWidth 8).toNat = 10 from rfl]
    unfold read
    by_cases hi : i < 10
    · have : sel (0x400 + 4 * i + j) = .bank i j := by
        have : ∀ (a : Fin 10) (b : Fin 4), sel (0x400 + 4 * a.val + b.val) = .bank a.val b.val := by decide +kernel
        exact this ⟨i, hi⟩ ⟨j, hj⟩
      rw [this]; simp [hi]
    · rw [sel_big _ (by omega)]; simp [hi]
example : ∃ s, write reset 0x277 0x0007040600070406#64 = .ok s := ⟨_, rfl⟩

end Verif.Msr
