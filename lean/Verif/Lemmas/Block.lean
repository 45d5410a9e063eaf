/-
Lemmas about block transfers.
-/
import Verif.Lemmas.RegionApi
import Verif.Spec.Block

namespace Verif.Block
open Verif.AS Verif.AS.Spec Verif.Block.Spec Verif.Region

/-- What holds of every memory map built by the region api (outside the coincidence of C01), see `good_run`. -/
structure Good (s : Space) : Prop where
  tiled : Tiled s
  max : s.max = maxAddr
  alias : RegP AliasOk s
  buff : ∀ n ∈ s.nodes, n.reg.type ≠ .unmapped → n.reg.buffOff ≤ n.reg.start

theorem good_create : Good (Space.create maxAddr) := by
  refine ⟨tiled_create _, rfl, ?_, ?_⟩
  · intro n hn
    simp only [Space.create, List.mem_singleton] at hn
    subst hn; simp [AliasOk]
  · intro n hn
    simp only [Space.create, List.mem_singleton] at hn
    subst hn; simp

/-- The changes the region api makes: valid bounds, well-formed alias fields, backing offset not above the start. -/
def ApiOp : Op → Prop
  | .insert r o => (r.start ≤ r.stop ∧ r.stop ≤ maxAddr) ∧ AliasOk r ∧ (∃ k, o = .req k) ∧ r.buffOff ≤ r.start
  | .erase b c => b ≤ c ∧ c ≤ maxAddr

theorem good_step {s s' : Space} {op : Op} (h : Good s) (ho : ApiOp op) (hc : ¬ Coincidence s op) (hs : s.step op = some s') : Good s' := by
  have hv : OpValid s.max op := by
    rw [h.max]; cases op with
    | insert r o => exact ho.1
    | erase b c => exact ho
  obtain ⟨t, ht, T, hm, hserv⟩ := step_spec h.tiled op hv hc
  rw [hs] at ht
  cases ht
  refine ⟨T, hm.trans h.max, ?_, ?_⟩
  · cases op with
    | insert r o => exact h.alias.insert aliasOk_boundsFree ho.2.1 hs
    | erase b c => exact h.alias.erase aliasOk_boundsFree (by simp [AliasOk]) hs
  · intro n hn hne
    have hcn : Contains n.reg n.reg.start := ⟨Nat.le_refl _, T.le n hn⟩
    have hle : n.reg.start ≤ s.max := by rw [← hm]; have := T.leMax n hn; have := T.le n hn; omega
    have h1 := T.serves_of_mem hn hcn
    have h2 := hserv _ hle
    rw [h1] at h2
    have pl : payload n.reg = some { n.reg with start := 0, stop := 0 } := by simp [payload, hne]
    rw [pl] at h2
    split at h2
    · next hin =>
      simp only [Option.some.injEq] at h2
      cases op with
      | insert r o =>
        simp only [Op.puts, payload] at h2
        split at h2
        · cases h2
        · simp only [Option.some.injEq, Region.mk.injEq] at h2
          have := ho.2.2.2
          have : r.start ≤ n.reg.start := hin.1
          omega
      | erase b c => simp [Op.puts] at h2
    · obtain ⟨q, hq, hqc⟩ := h.tiled.exists_contains hle
      rw [h.tiled.serves_of_mem hq hqc] at h2
      simp only [Option.some.injEq, payload] at h2
      split at h2
      · cases h2
      · next hqt =>
        simp only [Option.some.injEq, Region.mk.injEq] at h2
        have := h.buff q hq hqt
        have := hqc.1
        omega

theorem good_run {s s' : Space} {ops : List Op} (h : Good s) (ho : ∀ op ∈ ops, ApiOp op) (hb : Benign s ops) (hs : s.run ops = some s') :
    Good s' := by
  induction ops generalizing s with
  | nil => cases hs; exact h
  | cons op ops ih =>
    simp only [Space.run, Option.bind_eq_some_iff] at hs
    obtain ⟨t, h1, h2⟩ := hs
    exact ih (good_step h (ho op (by simp)) hb.1 h1) (fun op h => ho op (by simp [h])) (hb.2 t h1) h2

/-! ### resolution -/

theorem forwards_shift {m : List Node} {r z : Region} {a b : Addr} (h : Forwards m r a z b) (k : Addr) : Forwards m r (a + k) z (b + k) := by
  induction h with
  | here h => exact .here h
  | @next r a q z b h1 h2 _ ih =>
    refine .next h1 h2 ?_
    have : BitVec.ofNat 32 q.reg.start + BitVec.ofNat 32 r.aliasOff + (a + k - BitVec.ofNat 32 r.start) =
      BitVec.ofNat 32 q.reg.start + BitVec.ofNat 32 r.aliasOff + (a - BitVec.ofNat 32 r.start) + k := by grind
    rw [this]; exact ih

theorem findOid_mem {m : List Node} {o : Oid} {n : Node} (h : findOid m o = some n) : n ∈ m := List.mem_of_find?_eq_some h

theorem forwards_mem {m : List Node} {r z : Region} {a b : Addr} (h : Forwards m r a z b) : z = r ∨ ∃ n ∈ m, n.reg = z := by
  induction h with
  | here _ => exact Or.inl rfl
  | @next r a q z b h1 h2 h3 ih =>
    rcases ih with rfl | h
    · exact Or.inr ⟨q, findOid_mem h2, rfl⟩
    · exact Or.inr h

theorem resolveAlias_forwards {m : List Node} {f : Nat} {r z : Region} {a b : Addr} (hm : ∀ n ∈ m, AliasOk n.reg) (hr : AliasOk r)
    (h : resolveAlias m f r a = .done (z, b)) : Forwards m r a z b := by
  unfold resolveAlias LoopRes.map at h
  split at h
  · next p hp =>
    obtain ⟨z', off⟩ := p
    simp only [LoopRes.done.injEq, Prod.mk.injEq] at h
    obtain ⟨rfl, rfl⟩ := h
    have F := resolveLoop_forwards hp a
    have hz : AliasOk z' := by
      rcases forwards_mem F with rfl | ⟨n, hn, rfl⟩
      · exact hr
      · exact hm n hn
    have h0 : z'.aliasOff = 0 := hz.2 (forwards_notAlias F)
    rw [h0] at F
    have : a - BitVec.ofNat 32 r.start + BitVec.ofNat 32 z'.start + (off - BitVec.ofNat 32 r.aliasOff + BitVec.ofNat 32 r.aliasOff - BitVec.ofNat 32 0)
       = BitVec.ofNat 32 z'.start + off + (a - BitVec.ofNat 32 r.start) := by
      have e0 : BitVec.ofNat 32 0 = 0 := rfl
      rw [e0]; grind
    rw [this] at F
    exact F
  · cases h
  · cases h

/-- What `resolve` finds, in terms of `Forwards`. -/
theorem resolve_sound {m : List Node} {ramSize : Nat} (hm : ∀ n ∈ m, AliasOk n.reg) : ∀ {f : Nat} {r : Region} {a : Addr} {n : Nat},
    AliasOk r →
    match resolve m ramSize f r a n with
    | .ram i => ∃ z b, Forwards m r a z b ∧ r.start ≤ a.toNat ∧ (a + BitVec.ofNat 32 n - 1).toNat ≤ r.stop ∧
        z.start ≤ b.toNat ∧ (b + BitVec.ofNat 32 n - 1).toNat ≤ z.stop ∧ z.type = .ram ∧
        i = (b - BitVec.ofNat 32 z.buffOff).toNat ∧ i + n ≤ ramSize
    | .rom p i => ∃ z b, Forwards m r a z b ∧ r.start ≤ a.toNat ∧ (a + BitVec.ofNat 32 n - 1).toNat ≤ r.stop ∧
        z.start ≤ b.toNat ∧ (b + BitVec.ofNat 32 n - 1).toNat ≤ z.stop ∧ z.type = .rom ∧ p = z.romPtr ∧
        i = (b - BitVec.ofNat 32 z.buffOff).toNat
    | .fail => ¬ (r.start ≤ a.toNat ∧ (a + BitVec.ofNat 32 n - 1).toNat ≤ r.stop) ∨ ∃ z b, Forwards m r a z b ∧
        (¬ (z.start ≤ b.toNat ∧ (b + BitVec.ofNat 32 n - 1).toNat ≤ z.stop) ∨ (z.type ≠ .ram ∧ z.type ≠ .rom))
    | _ => True := by
  intro f
  induction f with
  | zero => intro r a n _; simp [resolve]
  | succ f ih =>
    intro r a n hr
    unfold resolve
    by_cases hb : r.start ≤ a.toNat ∧ (a + BitVec.ofNat 32 n - 1).toNat ≤ r.stop
    · rw [if_pos hb]
      have na : r.type ≠ .alias → r.aliased = none := by
        intro h
        cases h2 : r.aliased with
        | none => rfl
        | some o => exact absurd (hr.1.2 (by simp [h2])) h
      cases ht : r.type with
      | ram =>
        simp only
        by_cases hi : (a - BitVec.ofNat 32 r.buffOff).toNat + n ≤ ramSize
        · rw [if_pos hi]
          exact ⟨r, a, .here (na (by simp [ht])), hb.1, hb.2, hb.1, hb.2, ht, rfl, hi⟩
        · rw [if_neg hi]; trivial
      | rom =>
        exact ⟨r, a, .here (na (by simp [ht])), hb.1, hb.2, hb.1, hb.2, ht, rfl, rfl⟩
      | alias =>
        simp only
        cases hra : resolveAlias m (f + 1) r a with
        | done p =>
          obtain ⟨q, b⟩ := p
          have F := resolveAlias_forwards hm hr hra
          have hq : AliasOk q := by
            rcases forwards_mem F with rfl | ⟨n, hn, rfl⟩
            · exact hr
            · exact hm n hn
          have hqn := forwards_notAlias F
          have det : ∀ z b', Forwards m q b z b' → z = q ∧ b' = b := by
            intro z b' h
            have := forwards_det h (.here hqn)
            exact this
          have I := ih (r := q) (a := b) (n := n) hq
          simp only
          split at I
          · obtain ⟨z, b', F', h1, h2, h3, h4, h5, h6, h7⟩ := I
            obtain ⟨rfl, rfl⟩ := det _ _ F'
            exact ⟨_, _, F, hb.1, hb.2, h3, h4, h5, h6, h7⟩
          · obtain ⟨z, b', F', h1, h2, h3, h4, h5, h6, h7⟩ := I
            obtain ⟨rfl, rfl⟩ := det _ _ F'
            exact ⟨_, _, F, hb.1, hb.2, h3, h4, h5, h6, h7⟩
          · right
            rcases I with I | ⟨z, b', F', I⟩
            · exact ⟨q, b, F, Or.inl I⟩
            · obtain ⟨rfl, rfl⟩ := det _ _ F'
              exact ⟨_, _, F, I⟩
          · trivial
        | ub => trivial
        | running => trivial
      | unmapped => exact Or.inr ⟨r, a, .here (na (by simp [ht])), Or.inr (by simp [ht])⟩
      | mmio => exact Or.inr ⟨r, a, .here (na (by simp [ht])), Or.inr (by simp [ht])⟩
      | pmio => exact Or.inr ⟨r, a, .here (na (by simp [ht])), Or.inr (by simp [ht])⟩
    · rw [if_neg hb]; exact Or.inl hb

theorem chunk_pos {a : Addr} {left : Nat} (h : left ≠ 0) : 0 < chunk a left ∧ chunk a left ≤ left ∧ a.toNat % 4096 + chunk a left ≤ 4096 := by
  unfold chunk
  have := Nat.mod_lt a.toNat (show 0 < 4096 by decide)
  omega

theorem addr_lt (a : Addr) : a.toNat < 4294967296 := a.isLt

theorem noWrap {a : Addr} {n : Nat} (h : a.toNat + n ≤ 4294967296) (hn : 0 < n) :
    (a + BitVec.ofNat 32 n - 1).toNat = a.toNat + n - 1 := by
  rw [BitVec.toNat_sub, BitVec.toNat_add, BitVec.toNat_ofNat]
  have := addr_lt a
  have e1 : (1 : BitVec 32).toNat = 1 := rfl
  rw [e1]
  omega

theorem toNat_add_small {a : Addr} {k : Nat} (h : a.toNat + k < 4294967296) : (a + BitVec.ofNat 32 k).toNat = a.toNat + k := by
  rw [BitVec.toNat_add, BitVec.toNat_ofNat]
  omega

theorem toNat_sub_le {b : Addr} {o : Nat} (h : o ≤ b.toNat) : (b - BitVec.ofNat 32 o).toNat = b.toNat - o := by
  rw [BitVec.toNat_sub, BitVec.toNat_ofNat]
  have := addr_lt b
  omega

theorem search_region {s : Space} (h : Good s) {a : Addr} {r : Region} (hr : s.search a.toNat = some r) :
    ∃ n ∈ s.nodes, n.reg = r ∧ Contains r a.toNat := by
  have ha : a.toNat ≤ s.max := by have := addr_lt a; rw [h.max]; unfold maxAddr; omega
  obtain ⟨n, hn, hc⟩ := h.tiled.exists_contains ha
  have := h.tiled.search_of_mem hn hc
  rw [this] at hr
  cases hr
  exact ⟨n, hn, rfl, hc⟩

theorem search_total {s : Space} (h : Good s) (a : Addr) : ∃ r, s.search a.toNat = some r := by
  have ha : a.toNat ≤ s.max := by have := addr_lt a; rw [h.max]; unfold maxAddr; omega
  obtain ⟨n, hn, hc⟩ := h.tiled.exists_contains ha
  exact ⟨_, h.tiled.search_of_mem hn hc⟩

/-- The cells of a chunk. -/
def Target.cell : Target → Nat → Option Cell
  | .ram i, k => some (.ram (i + k))
  | .rom p i, k => some (.rom p (i + k))
  | _, _ => none

theorem target_ok {s : Space} (h : Good s) (hb : AliasesBelowTop s) {ramSize fuel : Nat} {a : Addr} {n : Nat} (hn : 0 < n)
    (hp : a.toNat % 4096 + n ≤ 4096) {k : Nat} (hk : k < n) {c : Cell} (hc : (target s ramSize fuel a n).cell k = some c) :
    BackedBy s (a + BitVec.ofNat 32 k) c ∧ ChunkOk s a n := by
  obtain ⟨r, hr⟩ := search_total h a
  have S := resolve_sound (ramSize := ramSize) (fun n hn => h.alias n hn) (f := fuel) (r := r) (a := a) (n := n)
    (by obtain ⟨q, hq, rfl, -⟩ := search_region h hr; exact h.alias q hq)
  have ht : target s ramSize fuel a n = resolve s.nodes ramSize fuel r a n := by unfold target; rw [hr]
  rw [ht] at hc
  obtain ⟨q, hq, rfl, hqc⟩ := search_region h hr
  have ha : a.toNat + n ≤ 4294967296 := by have := addr_lt a; omega
  -- the part common to ram and rom
  have common : ∀ z b, Forwards s.nodes q.reg a z b → (a + BitVec.ofNat 32 n - 1).toNat ≤ q.reg.stop → z.start ≤ b.toNat →
      (b + BitVec.ofNat 32 n - 1).toNat ≤ z.stop → (z.type = .ram ∨ z.type = .rom) →
      s.search (a + BitVec.ofNat 32 k).toNat = some q.reg ∧ Contains q.reg (a + BitVec.ofNat 32 k).toNat ∧
      Forwards s.nodes q.reg (a + BitVec.ofNat 32 k) z (b + BitVec.ofNat 32 k) ∧ Contains z (b + BitVec.ofNat 32 k).toNat ∧
      (b + BitVec.ofNat 32 k - BitVec.ofNat 32 z.buffOff).toNat = (b - BitVec.ofNat 32 z.buffOff).toNat + k ∧ ChunkOk s a n := by
    intro z b F h2 h3 h4 hty
    rw [noWrap ha hn] at h2
    have hbn : b.toNat + n ≤ 4294967296 := by
      by_cases hal : q.reg.type = .alias
      · have := hb _ _ _ _ hr hal F
        omega
      · have : q.reg.aliased = none := by
          cases h5 : q.reg.aliased with
          | none => rfl
          | some o => exact absurd ((h.alias q hq).1.2 (by simp [h5])) hal
        obtain ⟨-, rfl⟩ := forwards_det F (.here this)
        exact ha
    rw [noWrap hbn hn] at h4
    have e1 : (a + BitVec.ofNat 32 k).toNat = a.toNat + k := toNat_add_small (by omega)
    have e2 : (b + BitVec.ofNat 32 k).toNat = b.toNat + k := toNat_add_small (by omega)
    have c1 : Contains q.reg (a + BitVec.ofNat 32 k).toNat := by
      rw [e1]; have := hqc.1; exact ⟨by omega, by omega⟩
    have hzb : z.buffOff ≤ z.start := by
      have : ∃ n ∈ s.nodes, n.reg = z := by
        rcases forwards_mem F with rfl | h
        · exact ⟨q, hq, rfl⟩
        · exact h
      obtain ⟨w, hw, rfl⟩ := this
      exact h.buff w hw (by rcases hty with h | h <;> simp [h])
    refine ⟨h.tiled.search_of_mem hq c1, c1, forwards_shift F _, ?_, ?_, ?_⟩
    · rw [e2]; exact ⟨by omega, by omega⟩
    · rw [toNat_sub_le (by omega), toNat_sub_le (by omega), e2]; omega
    · exact ⟨q.reg, z, b, hr, hqc.1, by omega, F, h3, by omega, hty⟩
  cases hres : resolve s.nodes ramSize fuel q.reg a n with
  | ram i =>
    rw [hres] at S hc
    obtain ⟨z, b, F, h1, h2, h3, h4, h5, h6, h7⟩ := S
    obtain ⟨g1, g2, g3, g4, g5, g6⟩ := common z b F h2 h3 h4 (Or.inl h5)
    simp only [Target.cell, Option.some.injEq] at hc
    subst hc
    rw [h6, ← g5]
    exact ⟨.ram g1 g2 g3 g4 h5, g6⟩
  | rom p i =>
    rw [hres] at S hc
    obtain ⟨z, b, F, h1, h2, h3, h4, h5, h6, h7⟩ := S
    obtain ⟨g1, g2, g3, g4, g5, g6⟩ := common z b F h2 h3 h4 (Or.inr h5)
    simp only [Target.cell, Option.some.injEq] at hc
    subst hc
    rw [h7, ← g5, h6]
    exact ⟨.rom g1 g2 g3 g4 h5, g6⟩
  | fail => rw [hres] at hc; cases hc
  | ub => rw [hres] at hc; cases hc
  | hangs => rw [hres] at hc; cases hc

theorem target_fail {s : Space} (h : Good s) {ramSize fuel : Nat} {a : Addr} {n : Nat} (hn : 0 < n)
    (hp : a.toNat % 4096 + n ≤ 4096) (hf : target s ramSize fuel a n = .fail) : ¬ ChunkOk s a n := by
  rintro ⟨r, z, b, hr, h1, h2, F, h3, h4, h5⟩
  obtain ⟨q, hq, rfl, hqc⟩ := search_region h hr
  have ht : target s ramSize fuel a n = resolve s.nodes ramSize fuel q.reg a n := by unfold target; rw [hr]
  have S := resolve_sound (ramSize := ramSize) (fun n hn => h.alias n hn) (f := fuel) (r := q.reg) (a := a) (n := n) (h.alias q hq)
  rw [← ht, hf] at S
  have ha : a.toNat + n ≤ 4294967296 := by have := addr_lt a; omega
  have zmax : z.stop ≤ maxAddr := by
    rw [← h.max]
    rcases forwards_mem F with rfl | ⟨w, hw, rfl⟩
    · exact h.tiled.leMax q hq
    · exact h.tiled.leMax w hw
  rw [noWrap ha hn] at S
  rcases S with S | ⟨z', b', F', S⟩
  · exact S ⟨h1, by omega⟩
  · obtain ⟨rfl, rfl⟩ := forwards_det F' F
    rw [noWrap (by unfold maxAddr at zmax; omega) hn] at S
    rcases S with S | S
    · exact S ⟨h3, by omega⟩
    · rcases h5 with h5 | h5
      · exact S.1 h5
      · exact S.2 h5

theorem backedBy_det {s : Space} {a : Addr} {c c' : Cell} (h : BackedBy s a c) (h' : BackedBy s a c') : c = c' := by
  cases h with
  | ram h1 h2 h3 h4 h5 =>
    cases h' with
    | ram g1 g2 g3 g4 g5 => rw [h1] at g1; cases g1; obtain ⟨rfl, rfl⟩ := forwards_det h3 g3; rfl
    | rom g1 g2 g3 g4 g5 => rw [h1] at g1; cases g1; obtain ⟨rfl, rfl⟩ := forwards_det h3 g3; rw [h5] at g5; cases g5
  | rom h1 h2 h3 h4 h5 =>
    cases h' with
    | ram g1 g2 g3 g4 g5 => rw [h1] at g1; cases g1; obtain ⟨rfl, rfl⟩ := forwards_det h3 g3; rw [h5] at g5; cases g5
    | rom g1 g2 g3 g4 g5 => rw [h1] at g1; cases g1; obtain ⟨rfl, rfl⟩ := forwards_det h3 g3; rfl

end Verif.Block
