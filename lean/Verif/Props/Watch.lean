import Verif.Model.Watch
import Verif.Lemmas.Bits
/-
C55: watchpoints fire exactly on matching accesses.
-/
namespace Verif.Watch

/-- Specification, from the layout of DR7: bits 2i, 2i+1 enable; bits 16+4i, 17+4i kind;
bits 18+4i, 19+4i length. -/
def field (dr7 : BitVec 32) (pos : Nat) : Nat := dr7.toNat / 2 ^ pos % 4

/-- Specification: number of bytes watched. -/
def bytes (dr7 : BitVec 32) (i : Nat) : Nat :=
  match field dr7 (18 + 4 * i) with
  | 0 => 1 | 1 => 2 | 2 => 8 | _ => 4

/-- Specification: register `i` watches this byte address. -/
def Watches (d : Dbg) (i : Nat) (a : Nat) : Prop :=
  let n := bytes d.dr7 i
  (d.dr i).toNat / n * n ≤ a ∧ a < (d.dr i).toNat / n * n + n

/-- Specification: which kinds of DR7 an access triggers. -/
def Kind (dr7 : BitVec 32) (i : Nat) : Access → Prop
  | .write => field dr7 (16 + 4 * i) = 1 ∨ field dr7 (16 + 4 * i) = 3
  | .read => field dr7 (16 + 4 * i) = 3
  | .io => field dr7 (16 + 4 * i) = 2
  | .fetch => field dr7 (16 + 4 * i) = 0

/-- Specification: register `i` is triggered by an access of `size` bytes at `a`. -/
def Triggered (d : Dbg) (acc : Access) (a size : Nat) (i : Nat) : Prop :=
  field d.dr7 (2 * i) ≠ 0 ∧ Kind d.dr7 i acc ∧ ∃ b, a ≤ b ∧ b < a + size ∧ Watches d i b

/-! ## The code's fields are the specification's -/

theorem shr_field (x : BitVec 32) (n : Nat) : ((x >>> n) &&& 3#32).toNat = field x n := by
  rw [BitVec.toNat_and, BitVec.toNat_ushiftRight, Nat.shiftRight_eq_div_pow, show (3#32).toNat = 2 ^ 2 - 1 from rfl,
    Nat.and_two_pow_sub_one_eq_mod]
  rfl

theorem eq_field (x : BitVec 32) (n k : Nat) (hk : k < 4) :
    ((x >>> n) &&& 3#32 = BitVec.ofNat 32 k) ↔ field x n = k := by
  rw [← shr_field]
  constructor
  · intro h; rw [h, BitVec.toNat_ofNat]; omega
  · intro h; apply BitVec.eq_of_toNat_eq; rw [h, BitVec.toNat_ofNat]; omega

theorem enabled_iff (d7 : BitVec 32) (i : Nat) : enabled d7 i = true ↔ field d7 (2 * i) ≠ 0 := by
  unfold enabled
  rw [bne_iff_ne, Ne, show 0#32 = BitVec.ofNat 32 0 from rfl, eq_field _ _ 0 (by omega), Nat.mul_comm i 2]

theorem type_iff (d7 : BitVec 32) (i k : Nat) (hk : k < 4) : type d7 i = BitVec.ofNat 32 k ↔ field d7 (16 + 4 * i) = k := by
  unfold type
  rw [eq_field _ _ k hk, Nat.mul_comm i 4]

theorem field_lt (x : BitVec 32) (n : Nat) : field x n < 4 := Nat.mod_lt _ (by omega)

theorem length_cases (d7 : BitVec 32) (i : Nat) :
    (length d7 i = 1#32 ∧ bytes d7 i = 1) ∨ (length d7 i = 2#32 ∧ bytes d7 i = 2) ∨
    (length d7 i = 8#32 ∧ bytes d7 i = 8) ∨ (length d7 i = 4#32 ∧ bytes d7 i = 4) := by
  have hl := field_lt d7 (18 + 4 * i)
  have e := eq_field d7 (18 + 4 * i)
  have hm : i * 4 = 4 * i := Nat.mul_comm _ _
  rcases (by omega : field d7 (18 + 4 * i) = 0 ∨ field d7 (18 + 4 * i) = 1 ∨ field d7 (18 + 4 * i) = 2 ∨ field d7 (18 + 4 * i) = 3)
    with h | h | h | h
  · left; have := (e 0 (by omega)).mpr h; simp [length, bytes, hm, this, h]
  · right; left; have := (e 1 (by omega)).mpr h; simp [length, bytes, hm, this, h]
  · right; right; left; have := (e 2 (by omega)).mpr h; simp [length, bytes, hm, this, h]
  · right; right; right; have := (e 3 (by omega)).mpr h; simp [length, bytes, hm, this, h]

theorem align (x : BitVec 32) (k : Nat) (hk : k ≤ 3) :
    (x &&& ~~~(BitVec.ofNat 32 (2 ^ k) - 1#32)).toNat = x.toNat / 2 ^ k * 2 ^ k := by
  have h1 : x &&& ~~~(BitVec.ofNat 32 (2 ^ k) - 1#32) = (x >>> k) <<< k := by
    have : BitVec.ofNat 32 (2 ^ k) - 1#32 = BitVec.ofNat 32 (2 ^ k - 1) := by
      rcases (by omega : k = 0 ∨ k = 1 ∨ k = 2 ∨ k = 3) with rfl | rfl | rfl | rfl <;> rfl
    rw [this]
    apply BitVec.eq_of_getLsbD_eq
    intro i hi
    simp only [BitVec.getLsbD_and, BitVec.getLsbD_not, BitVec.getLsbD_shiftLeft, BitVec.getLsbD_ushiftRight,
      BitVec.getLsbD_ofNat, hi, decide_true, Bool.true_and, Nat.testBit_two_pow_sub_one]
    by_cases h : i < k
    · simp [h]
    · have : k + (i - k) = i := by omega
      simp [h, this]
  rw [h1, BitVec.toNat_shiftLeft, BitVec.toNat_ushiftRight, Nat.shiftRight_eq_div_pow, Nat.shiftLeft_eq]
  have : x.toNat / 2 ^ k * 2 ^ k ≤ x.toNat := Nat.div_mul_le_self _ _
  have := x.isLt
  omega

theorem bytes_pow (d7 : BitVec 32) (i : Nat) : ∃ k, k ≤ 3 ∧ bytes d7 i = 2 ^ k ∧ length d7 i = BitVec.ofNat 32 (2 ^ k) := by
  rcases length_cases d7 i with h | h | h | h
  · exact ⟨0, by omega, h.2, h.1⟩
  · exact ⟨1, by omega, h.2, h.1⟩
  · exact ⟨3, by omega, h.2, h.1⟩
  · exact ⟨2, by omega, h.2, h.1⟩

theorem pow_dvd (k : Nat) (hk : k ≤ 3) (q : Nat) (h : q * 2 ^ k < 2 ^ 32) : q * 2 ^ k + 2 ^ k ≤ 2 ^ 32 := by
  rcases (by omega : k = 0 ∨ k = 1 ∨ k = 2 ∨ k = 3) with rfl | rfl | rfl | rfl <;> omega

theorem range_spec (d : Dbg) (i : Nat) (a : Nat) :
    ((range d i).1.toNat ≤ a ∧ a ≤ (range d i).2.toNat) ↔ Watches d i a := by
  obtain ⟨k, hk, hb, hl⟩ := bytes_pow d.dr7 i
  unfold Watches range
  dsimp only
  rw [hb, hl]
  have h1 := align (d.dr i) k hk
  have hlt := (d.dr i &&& ~~~(BitVec.ofNat 32 (2 ^ k) - 1#32)).isLt
  have hp : 0 < 2 ^ k := Nat.two_pow_pos k
  have hend : ((d.dr i &&& ~~~(BitVec.ofNat 32 (2 ^ k) - 1#32)) + BitVec.ofNat 32 (2 ^ k) - 1#32).toNat =
      (d.dr i).toNat / 2 ^ k * 2 ^ k + 2 ^ k - 1 := by
    rw [h1] at hlt
    have := pow_dvd k hk _ hlt
    rw [BitVec.toNat_sub, BitVec.toNat_add, h1, BitVec.toNat_ofNat, BitVec.toNat_ofNat]
    have : 2 ^ k ≤ 8 := by rcases (by omega : k = 0 ∨ k = 1 ∨ k = 2 ∨ k = 3) with rfl | rfl | rfl | rfl <;> decide
    omega
  rw [h1, hend]
  omega

/-- Overlap of two ranges through a common address. -/
theorem overlap (d : Dbg) (i a n : Nat) (hn : 0 < n) :
    ((range d i).1.toNat ≤ a + n - 1 ∧ a ≤ (range d i).2.toNat) ↔ ∃ b, a ≤ b ∧ b < a + n ∧ Watches d i b := by
  have hle : (range d i).1.toNat ≤ (range d i).2.toNat := by
    have h := range_spec d i (((d.dr i).toNat / bytes d.dr7 i) * bytes d.dr7 i)
    have hp : 0 < bytes d.dr7 i := by
      obtain ⟨k, _, hb, _⟩ := bytes_pow d.dr7 i
      rw [hb]; exact Nat.two_pow_pos k
    have := h.mpr ⟨Nat.le_refl _, by omega⟩
    omega
  constructor
  · intro h
    by_cases hx : a ≤ (range d i).1.toNat
    · exact ⟨(range d i).1.toNat, hx, by omega, (range_spec d i _).mp ⟨Nat.le_refl _, hle⟩⟩
    · exact ⟨a, Nat.le_refl _, by omega, (range_spec d i _).mp ⟨by omega, h.2⟩⟩
  · rintro ⟨b, h1, h2, h3⟩
    have := (range_spec d i b).mpr h3
    omega

/-! ## The lists reflect the registers -/

/-- The lists hold exactly the entries of the enabled registers. -/
structure Synced (d : Dbg) : Prop where
  data : d.data = [0, 1, 2, 3].filterMap (dataEntry d)

/-- Reachable: in sync, or as created (DR7 enables nothing). -/
def Inv (d : Dbg) : Prop := Synced d ∨ d.dr7 = 0x400#32

theorem entry_congr {d e : Dbg} (h7 : d.dr7 = e.dr7) (hd : d.dr = e.dr) (i : Nat) : dataEntry d i = dataEntry e i := by
  simp only [dataEntry, range, h7, hd]

theorem synced_congr {d e : Dbg} (h : Synced d) (h7 : e.dr7 = d.dr7) (hd : e.dr = d.dr) (hl : e.data = d.data) : Synced e := by
  constructor
  rw [hl, h.data]
  congr 1
  funext i
  exact entry_congr h7.symm hd.symm i

theorem inv_congr {d e : Dbg} (h : Inv d) (h7 : e.dr7 = d.dr7) (hd : e.dr = d.dr) (hl : e.data = d.data) : Inv e := by
  rcases h with h | h
  · exact .inl (synced_congr h h7 hd hl)
  · exact .inr (h7.trans h)

theorem synced_dr7 (d : Dbg) (v : BitVec 32) : Synced (writeDr7 d v) := ⟨rfl⟩

theorem entry_idx {d : Dbg} {i : Nat} {w : Wp 32} (h : dataEntry d i = some w) : w.idx = i := by
  unfold dataEntry at h
  split at h
  · cases h; rfl
  · cases h

theorem filterMap_congr' {f g : Nat → Option (Wp 32)} : ∀ {l : List Nat}, (∀ j ∈ l, f j = g j) → l.filterMap f = l.filterMap g := by
  intro l
  induction l with
  | nil => intro _; rfl
  | cons a l ih =>
    intro h
    simp only [List.filterMap_cons, h a List.mem_cons_self, ih (fun j hj => h j (List.mem_cons_of_mem _ hj))]

/-- Updating entry `i` in a list built from distinct indices. -/
theorem setFirst_filterMap (f g : Nat → Option (Wp 32)) (i : Nat) (e : Wp 32) (hfi : ∀ j w, f j = some w → w.idx = j)
    (hg : ∀ j, j ≠ i → g j = f j) (hsome : ∃ w, f i = some w) (hgi : g i = some e) :
    ∀ l : List Nat, l.Nodup → setFirst i e (l.filterMap f) = l.filterMap g := by
  intro l
  induction l with
  | nil => intro _; rfl
  | cons a l ih =>
    intro hnd
    have hnd' := List.nodup_cons.mp hnd
    by_cases ha : a = i
    · subst ha
      obtain ⟨w, hw⟩ := hsome
      rw [List.filterMap_cons_some hw, List.filterMap_cons_some hgi]
      simp only [setFirst, hfi _ _ hw, if_true]
      congr 1
      apply filterMap_congr'
      intro j hj
      exact (hg j (fun h => hnd'.1 (h ▸ hj))).symm
    · have hga := hg a ha
      cases hfa : f a with
      | none => rw [List.filterMap_cons_none hfa, List.filterMap_cons_none (by rw [hga, hfa])]; exact ih hnd'.2
      | some w =>
        rw [List.filterMap_cons_some hfa, List.filterMap_cons_some (by rw [hga, hfa])]
        simp only [setFirst, hfi _ _ hfa, ha, if_false]
        rw [ih hnd'.2]

theorem reset_disabled {d : Dbg} (h : d.dr7 = 0x400#32) (i : Nat) (hi : i < 4) : enabled d.dr7 i = false ∧ type d.dr7 i = 0#32 := by
  rw [h]
  rcases (by omega : i = 0 ∨ i = 1 ∨ i = 2 ∨ i = 3) with rfl | rfl | rfl | rfl <;> decide

theorem writeDr_dr7 (d : Dbg) (i : Nat) (v : BitVec 32) : (writeDr d i v).dr7 = d.dr7 := by
  unfold writeDr
  dsimp only
  split
  · split
    · split <;> rfl
    · rfl
  · split <;> rfl

theorem inv_writeDr {d : Dbg} (h : Inv d) (i : Nat) (hi : i < 4) (v : BitVec 32) : Inv (writeDr d i v) := by
  rcases h with h | h
  · left
    have hother : ∀ j, j ≠ i → dataEntry { d with dr := fun j => if j = i then v else d.dr j } j = dataEntry d j := by
      intro j hj; simp only [dataEntry, range, if_neg hj]
    have hsame : dataEntry { d with dr := fun j => if j = i then v else d.dr j } i = none → dataEntry d i = none := by
      intro hn
      unfold dataEntry at hn ⊢
      dsimp only at hn
      split at hn
      · cases hn
      · rename_i hc; rw [if_neg hc]
    have keep : dataEntry { d with dr := fun j => if j = i then v else d.dr j } i = none →
        d.data = [0, 1, 2, 3].filterMap (dataEntry { d with dr := fun j => if j = i then v else d.dr j }) := by
      intro hn
      refine h.data.trans ?_
      apply filterMap_congr'
      intro j _
      by_cases hj : j = i
      · subst hj; rw [hn, hsame hn]
      · exact (hother j hj).symm
    unfold writeDr
    dsimp only
    split
    · rename_i ht
      have hn : dataEntry { d with dr := fun j => if j = i then v else d.dr j } i = none := by simp [dataEntry, ht]
      split
      · split
        · exact ⟨keep hn⟩
        · exact ⟨keep hn⟩
      · exact ⟨keep hn⟩
    · rename_i ht
      split
      · rename_i he
        have hs : ∃ w, dataEntry d i = some w := by simp [dataEntry, he, ht]
        constructor
        have hgi : dataEntry { d with dr := fun j => if j = i then v else d.dr j } i =
            some ⟨i, (range { d with dr := fun j => if j = i then v else d.dr j } i).1,
              (range { d with dr := fun j => if j = i then v else d.dr j } i).2⟩ := by simp [dataEntry, he, ht]
        have := setFirst_filterMap (dataEntry d) (dataEntry { d with dr := fun j => if j = i then v else d.dr j }) i _
          (fun j w => entry_idx) hother hs hgi [0, 1, 2, 3] (by decide)
        rw [← h.data] at this
        exact this
      · rename_i he
        have hn : dataEntry { d with dr := fun j => if j = i then v else d.dr j } i = none := by simp [dataEntry, he]
        exact ⟨keep hn⟩
  · right
    rw [writeDr_dr7, h]

theorem note_same (d : Dbg) (i : Nat) : (note d i).dr7 = d.dr7 ∧ (note d i).dr = d.dr ∧ (note d i).data = d.data ∧
    (note d i).rf = d.rf ∧ (note d i).io = d.io := ⟨rfl, rfl, rfl, rfl, rfl⟩

/-- What a check leaves alone. -/
theorem fold_same {w : Nat} (c : Wp w → Prop) [DecidablePred c] (a : Access) : ∀ (l : List (Wp w)) (d : Dbg),
    let e := l.foldl (fun d' w => if c w then if hits d' a w.idx then note d' w.idx else d' else d') d
    e.dr7 = d.dr7 ∧ e.dr = d.dr ∧ e.data = d.data ∧ e.rf = d.rf ∧ e.io = d.io := by
  intro l
  induction l with
  | nil => intro d; exact ⟨rfl, rfl, rfl, rfl, rfl⟩
  | cons x l ih =>
    intro d
    simp only [List.foldl_cons]
    have := ih (if c x then if hits d a x.idx then note d x.idx else d else d)
    dsimp only at this ⊢
    rw [this.1, this.2.1, this.2.2.1, this.2.2.2.1, this.2.2.2.2]
    split
    · split
      · exact ⟨rfl, rfl, rfl, rfl, rfl⟩
      · exact ⟨rfl, rfl, rfl, rfl, rfl⟩
    · exact ⟨rfl, rfl, rfl, rfl, rfl⟩

theorem inv_step {d : Dbg} (h : Inv d) (op : Op) : Inv (step d op) := by
  cases op with
  | movDr i v => exact inv_writeDr h i.val i.isLt v
  | movDr6 v => exact inv_congr h rfl rfl rfl
  | movDr7 v => exact .inl (synced_dr7 d v)
  | setDe b => exact inv_congr h rfl rfl rfl
  | setRf b => exact inv_congr h rfl rfl rfl
  | client r v6 v7 e f => exact .inl (synced_dr7 _ v7)
  | sync => exact .inl (synced_dr7 d _)
  | access a addr size =>
    have := fold_same (fun w : Wp 32 => w.lo.toNat ≤ (addr + size - 1#32).toNat ∧ addr.toNat ≤ w.hi.toNat) a d.data d
    exact inv_congr h this.1 this.2.1 this.2.2.1
  | accessIo p size =>
    have := fold_same (fun w : Wp 16 => w.lo.toNat ≤ (p.setWidth 32 + size - 1#32).toNat ∧ p.toNat ≤ w.hi.toNat) .io d.io d
    exact inv_congr h this.1 this.2.1 this.2.2.1
  | deliver => exact inv_congr h rfl rfl rfl

theorem inv_run (l : List Op) : Inv (run create l) := by
  suffices h : ∀ (l : List Op) (d : Dbg), Inv d → Inv (run d l) from h l create (.inr rfl)
  intro l
  induction l with
  | nil => intro d h; exact h
  | cons op l ih => intro d h; exact ih _ (inv_step h op)

/-! ## What a check reports -/

theorem hits_congr {d e : Dbg} (h : e.dr7 = d.dr7) (hr : e.rf = d.rf) (a : Access) (i : Nat) : hits e a i = hits d a i := by
  cases a <;> simp only [hits, h, hr]

theorem fold_fires {w : Nat} (c : Wp w → Prop) [DecidablePred c] (a : Access) (l : List (Wp w)) : ∀ (d : Dbg),
    let e := l.foldl (fun d' w => if c w then if hits d' a w.idx then note d' w.idx else d' else d') d
    (e.trap = true ↔ d.trap = true ∨ ∃ x ∈ l, c x ∧ hits d a x.idx = true) ∧
    (∀ i, i < 32 → (e.dr6.getLsbD i = true ↔ d.dr6.getLsbD i = true ∨ ∃ x ∈ l, x.idx = i ∧ c x ∧ hits d a x.idx = true)) := by
  induction l with
  | nil => intro d; simp
  | cons x l ih =>
    intro d
    simp only [List.foldl_cons]
    by_cases hc : c x ∧ hits d a x.idx = true
    · rw [if_pos hc.1, if_pos hc.2]
      have := ih (note d x.idx)
      dsimp only at this ⊢
      constructor
      · rw [this.1]
        exact ⟨fun _ => .inr ⟨x, List.mem_cons_self, hc⟩, fun _ => .inl rfl⟩
      · intro i hi
        rw [this.2 i hi]
        have hb : (note d x.idx).dr6.getLsbD i = (d.dr6.getLsbD i || decide (x.idx = i)) := by
          simp only [note, BitVec.getLsbD_or, BitVec.getLsbD_shiftLeft, hi, decide_true, Bool.true_and]
          congr 1
          by_cases hx : i < x.idx
          · simp [hx, show x.idx ≠ i by omega]
          · have : (1#32).getLsbD (i - x.idx) = decide (i - x.idx = 0) := by simp [BitVec.getLsbD_one]
            simp only [hx, decide_false, Bool.not_false, Bool.true_and, this, decide_eq_decide]
            omega
        rw [hb]
        constructor
        · rintro (h | ⟨y, hy, h⟩)
          · rcases (Bool.or_eq_true _ _).mp h with h | h
            · exact .inl h
            · exact .inr ⟨x, List.mem_cons_self, of_decide_eq_true h, hc⟩
          · exact .inr ⟨y, List.mem_cons_of_mem _ hy, h⟩
        · rintro (h | ⟨y, hy, h1, h2, h3⟩)
          · exact .inl (by simp [h])
          · rcases List.mem_cons.mp hy with rfl | hy
            · exact .inl (by simp [h1])
            · exact .inr ⟨y, hy, h1, h2, h3⟩
    · have : (if c x then if hits d a x.idx then note d x.idx else d else d) = d := by
        by_cases h1 : c x
        · rw [if_pos h1, if_neg (fun h2 => hc ⟨h1, h2⟩)]
        · rw [if_neg h1]
      rw [this]
      have := ih d
      dsimp only at this ⊢
      constructor
      · rw [this.1]
        simp only [List.mem_cons, exists_eq_or_imp]
        constructor
        · rintro (h | h)
          · exact .inl h
          · exact .inr (.inr h)
        · rintro (h | h | h)
          · exact .inl h
          · exact absurd h hc
          · exact .inr h
      · intro i hi
        rw [this.2 i hi]
        simp only [List.mem_cons, exists_eq_or_imp]
        constructor
        · rintro (h | h)
          · exact .inl h
          · exact .inr (.inr h)
        · rintro (h | h | h)
          · exact .inl h
          · exact absurd h.2 hc
          · exact .inr h

theorem hits_kind (d : Dbg) (a : Access) (ha : a ≠ .fetch) (i : Nat) : hits d a i = true ↔ Kind d.dr7 i a := by
  have e := type_iff d.dr7 i
  cases a with
  | fetch => exact absurd rfl ha
  | write =>
    simp only [hits, Kind, Bool.or_eq_true, beq_iff_eq]
    rw [← e 1 (by omega), ← e 3 (by omega)]
  | read => simp only [hits, Kind, beq_iff_eq]; rw [← e 3 (by omega)]
  | io => simp only [hits, Kind, beq_iff_eq]; rw [← e 2 (by omega)]

theorem mem_data {d : Dbg} (h : Synced d) (w : Wp 32) : w ∈ d.data ↔ ∃ i, i < 4 ∧ dataEntry d i = some w := by
  rw [h.data, List.mem_filterMap]
  constructor
  · rintro ⟨i, hi, h⟩
    refine ⟨i, ?_, h⟩
    simp only [List.mem_cons, List.not_mem_nil, or_false] at hi
    omega
  · rintro ⟨i, hi, h⟩
    refine ⟨i, ?_, h⟩
    simp only [List.mem_cons, List.not_mem_nil, or_false]
    omega

/-- The entry that register `i` has matches the access iff the register is triggered. -/
theorem entry_triggered {d : Dbg} (h : Inv d) (a : Access) (ha : a = .read ∨ a = .write) (addr size : BitVec 32) (hs : 0 < size.toNat)
    (hw : addr.toNat + size.toNat ≤ 2 ^ 32) (i : Nat) (hi : i < 4) :
    (∃ x ∈ d.data, x.idx = i ∧ (x.lo.toNat ≤ (addr + size - 1#32).toNat ∧ addr.toNat ≤ x.hi.toNat) ∧ hits d a x.idx = true) ↔
    Triggered d a addr.toNat size.toNat i := by
  have hend : (addr + size - 1#32).toNat = addr.toNat + size.toNat - 1 := by
    rw [BitVec.toNat_sub, BitVec.toNat_add, show (1#32).toNat = 1 from rfl]
    omega
  have haf : a ≠ .fetch := by rcases ha with h | h <;> rw [h] <;> decide
  rcases h with h | h
  · rw [hend]
    constructor
    · rintro ⟨x, hx, hxi, ho, hh⟩
      obtain ⟨j, hj, he⟩ := (mem_data h x).mp hx
      have : j = i := by rw [← hxi]; exact (entry_idx he).symm
      subst this
      unfold dataEntry at he
      split at he
      · rename_i hc
        cases he
        exact ⟨(enabled_iff _ _).mp (Bool.and_eq_true_iff.mp hc).1, (hits_kind d a haf _).mp hh,
          (overlap d j addr.toNat size.toNat hs).mp ho⟩
      · cases he
    · rintro ⟨h1, h2, h3⟩
      have hne : type d.dr7 i ≠ 2#32 := by
        intro ht
        have := (type_iff d.dr7 i 2 (by omega)).mp ht
        rcases ha with rfl | rfl <;> simp only [Kind] at h2 <;> omega
      refine ⟨⟨i, (range d i).1, (range d i).2⟩, (mem_data h _).mpr ⟨i, hi, ?_⟩, rfl,
        (overlap d i _ _ hs).mpr h3, (hits_kind d a haf i).mpr h2⟩
      unfold dataEntry
      rw [if_pos]
      simp [(enabled_iff _ _).mpr h1, hne]
  · have hd := reset_disabled h i hi
    constructor
    · rintro ⟨x, _, hxi, _, hh⟩
      rw [hxi] at hh
      have hk := (hits_kind d a haf i).mp hh
      have := (type_iff d.dr7 i 0 (by omega)).mp hd.2
      rcases ha with rfl | rfl <;> simp only [Kind] at hk <;> omega
    · rintro ⟨h1, _⟩
      rw [(enabled_iff _ _).mpr h1] at hd
      cases hd.1

/-- C55, data watchpoints: in every history, a read or write that does not run past the last address
raises the debug trap exactly when some register is triggered by it, and sets in DR6 exactly the bits of
the triggered registers. Missing: accesses that wrap past the last address (violation below). -/
theorem C55_data_watchpoints_partial (hist : List Op) (a : Access) (ha : a = .read ∨ a = .write) (addr size : BitVec 32)
    (hs : 0 < size.toNat) (hw : addr.toNat + size.toNat ≤ 2 ^ 32) (hp : (run create hist).trap = false) :
    let d := run create hist
    ((checkData d a addr size).trap = true ↔ ∃ i, i < 4 ∧ Triggered d a addr.toNat size.toNat i) ∧
    (∀ i, i < 4 → ((checkData d a addr size).dr6.getLsbD i = true ↔
      d.dr6.getLsbD i = true ∨ Triggered d a addr.toNat size.toNat i)) := by
  have hinv := inv_run hist
  intro d
  have hf := fold_fires (fun w : Wp 32 => w.lo.toNat ≤ (addr + size - 1#32).toNat ∧ addr.toNat ≤ w.hi.toNat) a d.data d
  constructor
  · refine hf.1.trans ?_
    constructor
    · rintro (h | ⟨x, hx, h1, h2⟩)
      · rw [show d.trap = false from hp] at h; cases h
      · have hlt : x.idx < 4 := by
          rcases hinv with h | h
          · obtain ⟨j, hj, he⟩ := (mem_data h x).mp hx
            rw [entry_idx he]; exact hj
          · by_cases hlt : x.idx < 4
            · exact hlt
            · exfalso
              have haf : a ≠ .fetch := by rcases ha with h | h <;> rw [h] <;> decide
              have hk := (hits_kind d a haf x.idx).mp h2
              have h0 : field d.dr7 (16 + 4 * x.idx) = 0 := by
                have hp : (2 : Nat) ^ 32 ≤ 2 ^ (16 + 4 * x.idx) := Nat.pow_le_pow_right (by omega) (by omega)
                unfold field
                rw [Nat.div_eq_of_lt (Nat.lt_of_lt_of_le d.dr7.isLt hp)]
              rcases ha with rfl | rfl <;> simp only [Kind] at hk <;> omega
        exact ⟨x.idx, hlt, (entry_triggered hinv a ha addr size hs hw x.idx hlt).mp ⟨x, hx, rfl, h1, h2⟩⟩
    · rintro ⟨i, hi, h⟩
      obtain ⟨x, hx, hxi, h1, h2⟩ := (entry_triggered hinv a ha addr size hs hw i hi).mpr h
      exact .inr ⟨x, hx, h1, h2⟩
  · intro i hi
    refine (hf.2 i (by omega)).trans ?_
    rw [entry_triggered hinv a ha addr size hs hw i hi]

/-- C55 fails for an access that wraps: DR0 watches writes of the last byte, a 2 byte write there is
not reported. -/
theorem C55_wrap_violation :
    let d := run create [.movDr 0 0xFFFFFFFF#32, .movDr7 0x10401#32]
    (checkData d .write 0xFFFFFFFF#32 2#32).trap = false ∧ Triggered d .write 0xFFFFFFFF 2 0 := by
  refine ⟨by decide, by decide, by left; decide, 0xFFFFFFFF, by omega, by omega, ?_⟩
  unfold Watches
  decide

/-- C55 fails for execution: a data watchpoint on an instruction's address raises a debug exception when
the instruction is executed, although no register asks for execution. -/
theorem C55_fetch_violation :
    let d := run create [.movDr 0 0x1000#32, .movDr7 0x10401#32]
    checkFetch d 0x1000#32 = true ∧ ¬∃ i, i < 4 ∧ Triggered d .fetch 0x1000 1 i := by
  refine ⟨by decide, ?_⟩
  rintro ⟨i, hi, h1, h2, _⟩
  revert h1 h2
  rcases (by omega : i = 0 ∨ i = 1 ∨ i = 2 ∨ i = 3) with rfl | rfl | rfl | rfl <;> simp only [Kind] <;> decide

/-- C55, instruction breakpoints, the part that holds: once the lists are in sync and every enabled
register that is not for io is a one byte instruction breakpoint, execution stops at `pc` exactly when RF
is clear and an enabled register asks for it. -/
theorem C55_instr_breakpoints_partial (d : Dbg) (hd : Synced d)
    (hk : ∀ i, i < 4 → field d.dr7 (2 * i) ≠ 0 → Kind d.dr7 i .io ∨ Kind d.dr7 i .fetch) (pc : BitVec 32) :
    checkFetch d pc = true ↔ d.rf = false ∧ ∃ i, i < 4 ∧ Triggered d .fetch pc.toNat 1 i := by
  have e : pc + 1#32 - 1#32 = pc := by rw [BitVec.add_sub_cancel]
  unfold checkFetch
  rw [e, List.any_eq_true]
  constructor
  · rintro ⟨x, hx, h⟩
    have h := Bool.and_eq_true_iff.mp h
    obtain ⟨i, hi, he⟩ := (mem_data hd x).mp hx
    unfold dataEntry at he
    split at he
    · rename_i hc
      cases he
      have hc := Bool.and_eq_true_iff.mp hc
      have hen := (enabled_iff _ _).mp hc.1
      have ho := of_decide_eq_true h.1
      refine ⟨by simpa [hits] using h.2, i, hi, hen, ?_, (overlap d i pc.toNat 1 (by omega)).mp (by simpa using ho)⟩
      rcases hk i hi hen with hk | hk
      · exfalso
        have := (type_iff d.dr7 i 2 (by omega)).mpr hk
        rw [this] at hc
        cases hc.2
      · exact hk
    · cases he
  · rintro ⟨hr, i, hi, h1, h2, h3⟩
    refine ⟨⟨i, (range d i).1, (range d i).2⟩, (mem_data hd _).mpr ⟨i, hi, ?_⟩, ?_⟩
    · unfold dataEntry
      rw [if_pos]
      have : type d.dr7 i ≠ 2#32 := by
        intro ht
        have := (type_iff d.dr7 i 2 (by omega)).mp ht
        simp only [Kind] at h2
        omega
      simp [(enabled_iff _ _).mpr h1, this]
    · rw [Bool.and_eq_true_iff]
      refine ⟨decide_eq_true ?_, by simp [hits, hr]⟩
      have := (overlap d i pc.toNat 1 (by omega)).mpr h3
      simpa using this

/-! ## io -/

/-- The io list reflects the registers. -/
structure IoSynced (d : Dbg) : Prop where
  io : d.io = [0, 1, 2, 3].filterMap (ioEntry d)

/-- C55, io watchpoints, the part that holds: right after MOV DR7 (or cpu_run), with port numbers in the
registers, a port access raises the debug trap exactly when a register is triggered. Missing: registers
written while CR4.DE is clear are not noticed, and the upper half of the register is ignored (violations). -/
theorem C55_io_watchpoints_partial (d0 : Dbg) (v : BitVec 32) (port : BitVec 16) (size : BitVec 32) (hs : 0 < size.toNat)
    (hsz : size.toNat ≤ 4) (hp : d0.trap = false) (hdr : ∀ i, i < 4 → (d0.dr i).toNat < 2 ^ 16) :
    let d := writeDr7 d0 v
    (checkIo d port size).trap = true ↔ ∃ i, i < 4 ∧ Triggered d .io port.toNat size.toNat i := by
  intro d
  have hf := fold_fires (fun w : Wp 16 => w.lo.toNat ≤ (port.setWidth 32 + size - 1#32).toNat ∧ port.toNat ≤ w.hi.toNat) .io d.io d
  have hpl := port.isLt
  have hend : (port.setWidth 32 + size - 1#32).toNat = port.toNat + size.toNat - 1 := by
    rw [BitVec.toNat_sub, BitVec.toNat_add, BitVec.toNat_setWidth, show (1#32).toNat = 1 from rfl]
    omega
  have hentry : ∀ i, i < 4 → ∀ w, ioEntry d i = some w → w.idx = i ∧ w.lo.toNat = (range d i).1.toNat ∧
      w.hi.toNat = (range d i).2.toNat ∧ enabled d.dr7 i = true ∧ type d.dr7 i = 2#32 := by
    intro i hi w hw
    unfold ioEntry at hw
    split at hw
    · rename_i hc
      have hc := Bool.and_eq_true_iff.mp hc
      cases hw
      obtain ⟨k, hk, hb, hl⟩ := bytes_pow d.dr7 i
      have h16 : (d.dr i).toNat < 2 ^ 16 := hdr i hi
      have h1 := align (d.dr i) k hk
      have hq : (d.dr i).toNat / 2 ^ k * 2 ^ k ≤ (d.dr i).toNat := Nat.div_mul_le_self _ _
      have hp : 0 < 2 ^ k := Nat.two_pow_pos k
      have h8 : 2 ^ k ≤ 8 := by rcases (by omega : k = 0 ∨ k = 1 ∨ k = 2 ∨ k = 3) with rfl | rfl | rfl | rfl <;> decide
      have h16b : (d.dr i).toNat / 2 ^ k * 2 ^ k + 2 ^ k ≤ 2 ^ 16 := by
        rcases (by omega : k = 0 ∨ k = 1 ∨ k = 2 ∨ k = 3) with rfl | rfl | rfl | rfl <;> omega
      refine ⟨rfl, ?_, ?_, hc.1, beq_iff_eq.mp hc.2⟩
      · dsimp only [range]
        rw [BitVec.toNat_setWidth, hl, h1]
        omega
      · dsimp only [range]
        rw [BitVec.toNat_setWidth, BitVec.toNat_sub, BitVec.toNat_sub, BitVec.toNat_add, BitVec.toNat_add, hl, h1,
          BitVec.toNat_setWidth, BitVec.toNat_setWidth, h1, BitVec.toNat_ofNat, BitVec.toNat_ofNat]
        omega
    · cases hw
  have hmem : ∀ w, w ∈ d.io ↔ ∃ i, i < 4 ∧ ioEntry d i = some w := by
    intro w
    show w ∈ [0, 1, 2, 3].filterMap (ioEntry d) ↔ _
    rw [List.mem_filterMap]
    constructor
    · rintro ⟨i, hi, h⟩
      refine ⟨i, ?_, h⟩
      simp only [List.mem_cons, List.not_mem_nil, or_false] at hi
      omega
    · rintro ⟨i, hi, h⟩
      refine ⟨i, ?_, h⟩
      simp only [List.mem_cons, List.not_mem_nil, or_false]
      omega
  refine hf.1.trans ?_
  rw [hend]
  constructor
  · rintro (h | ⟨x, hx, h1, h2⟩)
    · rw [show d.trap = false from hp] at h; cases h
    · obtain ⟨i, hi, he⟩ := (hmem x).mp hx
      obtain ⟨e1, e2, e3, e4, e5⟩ := hentry i hi x he
      refine ⟨i, hi, (enabled_iff _ _).mp e4, (type_iff _ _ 2 (by omega)).mp e5, ?_⟩
      rw [e2, e3] at h1
      exact (overlap d i _ _ hs).mp h1
  · rintro ⟨i, hi, h1, h2, h3⟩
    have hty := (type_iff d.dr7 i 2 (by omega)).mpr h2
    have hs' : ∃ w, ioEntry d i = some w := by
      unfold ioEntry
      simp only [(enabled_iff d.dr7 i).mpr h1, hty, beq_self_eq_true, Bool.and_self, if_true]
      exact ⟨_, rfl⟩
    obtain ⟨w, hw⟩ := hs'
    obtain ⟨e1, e2, e3, e4, e5⟩ := hentry i hi w hw
    refine .inr ⟨w, (hmem w).mpr ⟨i, hi, hw⟩, ?_, ?_⟩
    · rw [e2, e3]; exact (overlap d i _ _ hs).mpr h3
    · rw [e1]; simp [hits, hty]

/-- C55 fails: an io watchpoint moved to another port while CR4.DE is clear keeps watching the old one,
also after CR4.DE is set. -/
theorem C55_io_moved_violation :
    let d := run create [.movDr 0 0x60#32, .movDr7 0x20401#32, .movDr 0 0x70#32, .setDe true]
    (checkIo d 0x70#16 1#32).trap = false ∧ Triggered d .io 0x70 1 0 ∧
    (checkIo d 0x60#16 1#32).trap = true ∧ ¬∃ i, i < 4 ∧ Triggered d .io 0x60 1 i := by
  refine ⟨by decide, ⟨by decide, by simp only [Kind]; decide, 0x70, by omega, by omega, by unfold Watches; decide⟩, by decide, ?_⟩
  rintro ⟨i, hi, h1, h2, b, hb1, hb2, h3⟩
  have : b = 0x60 := by omega
  subst this
  revert h1 h2 h3
  rcases (by omega : i = 0 ∨ i = 1 ∨ i = 2 ∨ i = 3) with rfl | rfl | rfl | rfl <;> simp only [Kind, Watches] <;> decide

/-- Hypotheses met: two data watchpoints, a read triggers one, a write both. -/
example : let d := run create [.movDr 1 0x2003#32, .movDr7 0xFD00414#32, .movDr 2 0x2010#32]
    (checkData d .write 0x2002#32 2#32).trap = true ∧ (checkData d .read 0x2002#32 2#32).trap = false ∧
    (run create [.movDr 1 0x2003#32, .movDr7 0xFD00414#32, .movDr 2 0x2010#32]).trap = false ∧
    (checkData d .write 0x2000#32 32#32).dr6 = 0xFFFF0FF6#32 ∧ (checkData d .read 0x2010#32 4#32).trap = true := by decide

/-- Hypotheses of the breakpoint theorem met, with a hit and a miss. -/
example : let d := writeDr7 { create with dr := fun i => if i = 0 then 0x1234#32 else 0#32 } 0x402#32
    Synced d ∧ checkFetch d 0x1234#32 = true ∧ checkFetch d 0x1235#32 = false ∧
    (∀ i, i < 4 → field d.dr7 (2 * i) ≠ 0 → Kind d.dr7 i .io ∨ Kind d.dr7 i .fetch) := by
  refine ⟨synced_dr7 _ _, by decide, by decide, ?_⟩
  intro i hi
  rcases (by omega : i = 0 ∨ i = 1 ∨ i = 2 ∨ i = 3) with rfl | rfl | rfl | rfl <;> simp only [Kind] <;> decide

theorem writeDr_dr6 (d : Dbg) (i : Nat) (v : BitVec 32) : (writeDr d i v).dr6 = d.dr6 := by
  unfold writeDr
  dsimp only
  split
  · split
    · split <;> rfl
    · rfl
  · split <;> rfl

theorem fold_dr6 {w : Nat} (c : Wp w → Prop) [DecidablePred c] (a : Access) : ∀ (l : List (Wp w)) (d : Dbg), (∀ x ∈ l, x.idx < 4) →
    let e := l.foldl (fun d' w => if c w then if hits d' a w.idx then note d' w.idx else d' else d') d
    ∀ j, j < 32 → (4 ≤ j → e.dr6.getLsbD j = d.dr6.getLsbD j) ∧ (d.dr6.getLsbD j = true → e.dr6.getLsbD j = true) := by
  intro l d hl e j hj
  have h := (fold_fires c a l d).2 j hj
  refine ⟨fun h4 => ?_, fun x => h.2 (.inl x)⟩
  rw [Bool.eq_iff_iff]
  refine h.trans ⟨?_, .inl⟩
  rintro (x | ⟨x, hx, rfl, -⟩)
  · exact x
  · have := hl x hx; omega

/-- The lists name only DR0 to DR3. -/
structure Low (d : Dbg) : Prop where
  data : ∀ x ∈ d.data, x.idx < 4
  io : ∀ x ∈ d.io, x.idx < 4

theorem ioEntry_idx {d : Dbg} {i : Nat} {w : Wp 16} (h : ioEntry d i = some w) : w.idx = i := by
  unfold ioEntry at h
  split at h
  · cases h; rfl
  · cases h

theorem low_dr7 (d : Dbg) (v : BitVec 32) : Low (writeDr7 d v) := by
  constructor
  · intro x hx
    obtain ⟨i, hi, e⟩ := List.mem_filterMap.1 hx
    rw [entry_idx e]
    have : i = 0 ∨ i = 1 ∨ i = 2 ∨ i = 3 := by simpa using hi
    omega
  · intro x hx
    obtain ⟨i, hi, e⟩ := List.mem_filterMap.1 hx
    rw [ioEntry_idx e]
    have : i = 0 ∨ i = 1 ∨ i = 2 ∨ i = 3 := by simpa using hi
    omega

theorem low_setFirst {w : Nat} (i : Nat) (e : Wp w) (he : e.idx < 4) : ∀ (l : List (Wp w)), (∀ x ∈ l, x.idx < 4) → ∀ x ∈ setFirst i e l, x.idx < 4 := by
  intro l
  induction l with
  | nil => intro h x hx; cases hx
  | cons y l ih =>
    intro h x hx
    unfold setFirst at hx
    split at hx
    · rcases List.mem_cons.1 hx with rfl | hx
      · exact he
      · exact h x (List.mem_cons_of_mem _ hx)
    · rcases List.mem_cons.1 hx with rfl | hx
      · exact h _ List.mem_cons_self
      · exact ih (fun z hz => h z (List.mem_cons_of_mem _ hz)) x hx

theorem low_writeDr {d : Dbg} (h : Low d) (i : Nat) (hi : i < 4) (v : BitVec 32) : Low (writeDr d i v) := by
  unfold writeDr
  dsimp only
  split
  · split
    · split
      next e he => exact ⟨h.data, low_setFirst i e (by rw [ioEntry_idx he]; exact hi) d.io h.io⟩
      next => exact ⟨h.data, h.io⟩
    · exact ⟨h.data, h.io⟩
  · split
    · exact ⟨low_setFirst i _ hi d.data h.data, h.io⟩
    · exact ⟨h.data, h.io⟩

theorem low_step {d : Dbg} (h : Low d) (op : Op) : Low (step d op) := by
  cases op with
  | movDr i v => exact low_writeDr h i.val i.isLt v
  | movDr6 v => exact ⟨h.data, h.io⟩
  | movDr7 v => exact low_dr7 d v
  | setDe b => exact ⟨h.data, h.io⟩
  | setRf b => exact ⟨h.data, h.io⟩
  | client r v6 v7 e f => exact low_dr7 _ v7
  | sync => exact low_dr7 d _
  | access a addr size =>
    have := fold_same (fun w : Wp 32 => w.lo.toNat ≤ (addr + size - 1#32).toNat ∧ addr.toNat ≤ w.hi.toNat) a d.data d
    exact ⟨fun x hx => h.data x (this.2.2.1 ▸ hx), fun x hx => h.io x (this.2.2.2.2 ▸ hx)⟩
  | accessIo p size =>
    have := fold_same (fun w : Wp 16 => w.lo.toNat ≤ (p.setWidth 32 + size - 1#32).toNat ∧ p.toNat ≤ w.hi.toNat) .io d.io d
    exact ⟨fun x hx => h.data x (this.2.2.1 ▸ hx), fun x hx => h.io x (this.2.2.2.2 ▸ hx)⟩
  | deliver => exact ⟨h.data, h.io⟩

theorem low_run : ∀ (l : List Op) (d : Dbg), Low d → Low (run d l) := by
  intro l
  induction l with
  | nil => intro d h; exact h
  | cons op l ih => intro d h; exact ih _ (low_step h op)

/-- The history does not let the client of the library overwrite the debug registers. -/
def NoClient (l : List Op) : Prop := ∀ op ∈ l, ∀ r v6 v7 e f, op ≠ .client r v6 v7 e f

theorem reserved_bit : ∀ j : Fin 32, (0xFFFF0FF0#32).getLsbD j.val = decide ((4 ≤ j.val ∧ j.val < 12) ∨ 16 ≤ j.val) := by decide +kernel

/-- C55: DR6 only collects.  After a MOV DR6 the bits are those written and the reserved ones (4 to 11 and 16 to 31, always 1).  From then on, whatever
the guest does short of another MOV DR6 - moving the other debug registers, any data or port access, the delivery of the trap - no bit is
ever lost and none outside the four status bits is gained. -/
theorem C55_dr6 (before after : List Op) (v : BitVec 32) (hc : NoClient after) (hm : ∀ w, Op.movDr6 w ∉ after) (j : Nat) (hj : j < 32) :
    let moved := run create (before ++ [.movDr6 v])
    let later := run create (before ++ [.movDr6 v] ++ after)
    (moved.dr6.getLsbD j = true ↔ v.getLsbD j = true ∨ (4 ≤ j ∧ j < 12) ∨ 16 ≤ j) ∧
    (moved.dr6.getLsbD j = true → later.dr6.getLsbD j = true) ∧
    (4 ≤ j → later.dr6.getLsbD j = moved.dr6.getLsbD j) := by
  intro moved later
  have hl : Low moved := low_run _ _ ⟨fun _ h => (by cases h), fun _ h => (by cases h)⟩
  refine ⟨?_, ?_⟩
  · have : moved.dr6 = v ||| 0xFFFF0FF0#32 := by
      show (run create (before ++ [.movDr6 v])).dr6 = _
      unfold run
      rw [List.foldl_append]
      rfl
    rw [this, BitVec.getLsbD_or, reserved_bit ⟨j, hj⟩, Bool.or_eq_true, decide_eq_true_eq]
  · have : later = run moved after := by
      show run create (before ++ [.movDr6 v] ++ after) = _
      unfold run
      rw [List.foldl_append]
      rfl
    rw [this]
    clear this
    clear later
    generalize moved = d at hl
    revert hc hm hl
    induction after generalizing d with
    | nil => intro _ _ _; exact ⟨id, fun _ => rfl⟩
    | cons op l ih =>
      intro hc hm hl
      have h1 : (d.dr6.getLsbD j = true → (step d op).dr6.getLsbD j = true) ∧ (4 ≤ j → (step d op).dr6.getLsbD j = d.dr6.getLsbD j) := by
        cases op with
        | movDr i v => unfold step; rw [writeDr_dr6]; exact ⟨id, fun _ => rfl⟩
        | movDr6 v => exact absurd List.mem_cons_self (hm v)
        | movDr7 v => exact ⟨id, fun _ => rfl⟩
        | setDe b => exact ⟨id, fun _ => rfl⟩
        | setRf b => exact ⟨id, fun _ => rfl⟩
        | client r v6 v7 e f => exact absurd rfl (hc _ List.mem_cons_self r v6 v7 e f)
        | sync => exact ⟨id, fun _ => rfl⟩
        | access a addr size => exact (fold_dr6 _ a d.data d hl.data j hj).symm
        | accessIo p size => exact (fold_dr6 _ .io d.io d hl.io j hj).symm
        | deliver => exact ⟨id, fun _ => rfl⟩
      have h2 := ih (step d op) (fun o ho => hc o (List.mem_cons_of_mem _ ho)) (fun w hw => hm w (List.mem_cons_of_mem _ hw)) (low_step hl op)
      exact ⟨fun x => h2.1 (h1.1 x), fun x => (h2.2 x).trans (h1.2 x)⟩

/-- Hypotheses met: a status bit survives, and a second access adds one. -/
example : let l := [Op.access .write 0x2002#32 2#32, .deliver, .movDr 1 0#32, .access .write 0x2012#32 1#32]
    NoClient l ∧ (∀ w, Op.movDr6 w ∉ l) ∧
    (run create ([.movDr 1 0x2003#32, .movDr7 0xFD00414#32, .movDr 2 0x2010#32] ++ [.movDr6 0x2000#32] ++ l)).dr6 = 0xFFFF2FF6#32 := by
  refine ⟨?_, ?_, by decide⟩
  · unfold NoClient; intro op h; simp at h; rcases h with rfl | rfl | rfl | rfl <;> simp
  · intro w h; simp at h

end Verif.Watch
