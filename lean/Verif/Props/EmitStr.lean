import Verif.Props.Emit
import Verif.Lemmas.EmitStr
/-
C101: the emitted code of the string instructions.
-/
namespace Verif.Emit
open Host Spec

theorem ofNat_load {z : Sz} (hz : z ≠ .q) (m : Guest.Mem) (a : BitVec 32) : (BitVec.ofNat z.bits (Guest.load m a z.bytes)).toNat = Guest.load m a z.bytes := by
  rw [BitVec.toNat_ofNat]
  apply Nat.mod_eq_of_lt
  have := Guest.load_lt m a z.bytes
  cases z
  · exact this
  · exact this
  · exact this
  · exact absurd rfl hz

theorem store_low (m : Guest.Mem) (a : BitVec 32) (k v : Nat) : Guest.store m a k (v % 256 ^ k) = Guest.store m a k v := by
  funext x
  unfold Guest.store
  split
  · rename_i h
    apply BitVec.eq_of_toNat_eq
    rw [BitVec.toNat_ofNat, BitVec.toNat_ofNat]
    generalize (x - a).toNat = j at h
    obtain ⟨d, rfl⟩ : ∃ d, k = j + 1 + d := ⟨k - (j + 1), by omega⟩
    rw [Nat.pow_add, Nat.pow_succ, Nat.mul_assoc, Nat.mod_mul_right_div_self, Nat.mod_mul_right_mod]
  · rfl

theorem acc_mod {z : Sz} (hz : z ≠ .q) (g : G) : (rdG g z acc).toNat = (g.gpr 0).toNat % 256 ^ z.bytes := by
  unfold rdG acc
  rw [if_neg (by simp), BitVec.toNat_setWidth]
  cases z
  · rfl
  · rfl
  · rfl
  · exact absurd rfl hz

theorem low8_ofNat (v : Nat) : BitVec.setWidth 32 (BitVec.ofNat 8 v) = BitVec.ofNat 32 v &&& 0xFF#32 := by
  apply BitVec.eq_of_toNat_eq
  rw [BitVec.toNat_and, BitVec.toNat_setWidth, BitVec.toNat_ofNat, BitVec.toNat_ofNat]
  show _ = v % 2 ^ 32 &&& (2 ^ 8 - 1)
  rw [Nat.and_two_pow_sub_one_eq_mod]
  omega
theorem low16_ofNat (v : Nat) : BitVec.setWidth 32 (BitVec.ofNat 16 v) = BitVec.ofNat 32 v &&& 0xFFFF#32 := by
  apply BitVec.eq_of_toNat_eq
  rw [BitVec.toNat_and, BitVec.toNat_setWidth, BitVec.toNat_ofNat, BitVec.toNat_ofNat]
  show _ = v % 2 ^ 32 &&& (2 ^ 16 - 1)
  rw [Nat.and_two_pow_sub_one_eq_mod]
  omega

theorem lods_acc {z : Sz} (hz : z ≠ .q) (g : G) (v : Nat) : (wrG g z acc (BitVec.ofNat z.bits v)).gpr 0 = StringOps.setAcc z.bytes (g.gpr 0) v := by
  show putG z false (g.gpr 0) (BitVec.ofNat z.bits v) = _
  unfold StringOps.setAcc
  cases z
  · exact congrArg (_ ||| ·) (low8_ofNat v)
  · exact congrArg (_ ||| ·) (low16_ofNat v)
  · rfl
  · exact absurd rfl hz

theorem if_some {α : Type} {c : Bool} {a b : α} (h : a = b) : (if c then some a else none) = if c then some b else none := by rw [h]

theorem sub_fl {z : Sz} (hz : z ≠ .q) (s : Flags.St) (a b : Nat) :
    (Flags.subOp s (BitVec.ofNat (8 * z.bytes) a) (BitVec.ofNat (8 * z.bytes) b)).2 =
    arith false s (BitVec.ofNat z.bits a) (BitVec.ofNat z.bits b) (BitVec.ofNat z.bits a - BitVec.ofNat z.bits b) := by
  cases z
  · rfl
  · rfl
  · rfl
  · exact absurd rfl hz

theorem acc_ofNat (g : G) (z : Sz) (hz : z ≠ .q) : rdG g z acc = BitVec.ofNat z.bits (g.gpr 0).toNat := by
  apply BitVec.eq_of_toNat_eq
  rw [acc_mod hz, BitVec.toNat_ofNat]
  cases z
  · rfl
  · rfl
  · rfl
  · exact absurd rfl hz

theorem sview_elem (e : Env) (x : StrInsn) (g : G) (hz : x.z ≠ .q) :
    StringOps.elem e.ok (senc x) (sview e x g) =
      if may e x g then some (sview e x (slide x (g.fl.eflags.getLsbD 10) (mid e x g))) else none := by
  unfold StringOps.elem may mid slide
  dsimp only [senc, sview]
  cases hi : x.i <;> dsimp only [idxRegs, List.foldl, esi, edi] <;> refine if_some ?_
  · rw [ofNat_load hz]; rfl
  · rw [acc_mod hz, store_low]; rfl
  · exact congrArg (fun v : BitVec 32 => ({ mem := g.mem, esi := _, edi := g.gpr 7, ecx := g.gpr 1, eax := v, df := g.fl.eflags.getLsbD 10, src := e.seg x.seg, dst := e.seg 0, fl := g.fl } : StringOps.St)) (lods_acc hz g _).symm
  · rw [sub_fl hz]; rfl
  · rw [sub_fl hz, ← acc_ofNat g x.z hz]; rfl

theorem slide_others (x : StrInsn) (df : Bool) (g : G) : OthersStay g (slide x df g) := by
  intro i hi
  unfold slide
  cases x.i <;> rcases hi with rfl | rfl | rfl | rfl <;> rfl
theorem mid_others (e : Env) (x : StrInsn) (g : G) : OthersStay g (mid e x g) := by
  intro i hi
  unfold mid
  cases x.i <;> rcases hi with rfl | rfl | rfl | rfl <;> rfl
theorem dec_others (a32 : Bool) (g : G) : OthersStay g (dec a32 g) := by
  intro i hi
  rcases hi with rfl | rfl | rfl | rfl <;> rfl
theorem others_trans {a b c : G} (h : OthersStay a b) (h' : OthersStay b c) : OthersStay a c := fun i hi => (h' i hi).trans (h i hi)
theorem turned_others (e : Env) (x : StrInsn) (g : G) : OthersStay g (turned e x g) := by
  have := others_trans (mid_others e x g) (slide_others x (g.fl.eflags.getLsbD 10) (mid e x g))
  unfold turned
  dsimp only
  split
  · exact others_trans this (dec_others _ _)
  · exact this

theorem sview_dec (e : Env) (x : StrInsn) (g : G) : sview e x (dec x.a32 g) = StringOps.decCount (senc x) (sview e x g) := rfl

theorem count_view (e : Env) (x : StrInsn) (g : G) : StringOps.count (senc x) (sview e x g) = countOf x g := StringOps.rd_val _ _

theorem more_eq (e : Env) (x : StrInsn) (r : StringOps.Rep) (g : G) :
    more x r g = (!decide (countOf x g = 0) && StringOps.goOn r (sview e x g)) := by
  rw [← count_view e]
  unfold more StringOps.goOn
  congr 1
  congr 1
  unfold StringOps.count sview senc
  dsimp only
  generalize StringOps.rdIdx x.a32 (g.gpr 1) = v
  rw [Bool.eq_iff_iff, beq_iff_eq, decide_eq_true_eq]
  exact ⟨fun h => by rw [h]; rfl, fun h => BitVec.eq_of_toNat_eq h⟩

/-- The host's loop follows `o`. -/
def Follows (e : Env) (x : StrInsn) (h : Host.St) (o : Out) : StringOps.Out → Prop
  | .done t => ∃ h', o = .next 0 h' ∧ h'.r .rcx = e.ctx ∧ sview e x h'.g = t ∧ OthersStay h.g h'.g
  | .fault t => ∃ g', o = .fault g' ∧ sview e x g' = t ∧ OthersStay h.g g'

theorem Follows.trans {e : Env} {x : StrInsn} {h h1 : Host.St} {o : Out} {t : StringOps.Out} (hs : OthersStay h.g h1.g) (hf : Follows e x h1 o t) :
    Follows e x h o t := by
  cases t
  · obtain ⟨h', a, b, c, d⟩ := hf
    exact ⟨h', a, b, c, others_trans hs d⟩
  · obtain ⟨g', a, b, c⟩ := hf
    exact ⟨g', a, b, others_trans hs c⟩

/-- The loop of the host is the loop of Model/StringOps.lean. -/
theorem again_run (e : Env) (x : StrInsn) (hx : StrOk e x) (r : StringOps.Rep) (hr : x.rep = some r) : ∀ (n k : Nat) (h : Host.St), h.r .rcx = e.ctx →
    countOf x h.g = k + 1 → k < n → Follows e x h (again e (strTurn x) n h) (StringOps.loop e.ok (senc x) r (k + 1) (sview e x h.g)) := by
  intro n
  induction n with
  | zero => intro k h _ _ hk; exact absurd hk (Nat.not_lt_zero _)
  | succ n ih =>
    intro k h hc hk hn
    obtain ⟨h1, h2⟩ := turn_run e x h hx hc
    rw [StringOps.loop, again]
    cases hm : may e x h.g
    · rw [h2 hm, sview_elem e x h.g hx.1, hm]
      exact ⟨h.g, rfl, rfl, fun _ _ => rfl⟩
    · obtain ⟨h3, r3, c3, g3⟩ := h1 hm
      have he := sview_elem e x h.g hx.1
      rw [hm, if_pos rfl] at he
      have ht : sview e x (turned e x h.g) = StringOps.decCount (senc x) (sview e x (slide x (h.g.fl.eflags.getLsbD 10) (mid e x h.g))) := by
        unfold turned
        rw [hr]
        exact sview_dec e x _
      have hcnt : StringOps.count (senc x) (sview e x (turned e x h.g)) = k := by
        have := StringOps.count_elem he
        rw [count_view e x h.g] at this
        rw [ht, StringOps.count_dec _ _ (by omega)]
        omega
      have ho := turned_others e x h.g
      have hmo := more_eq e x r (turned e x h.g)
      rw [← count_view e, hcnt] at hmo
      rw [he, r3]
      dsimp only
      rw [← ht, hcnt]
      have hgo : strGoes x (turned e x h.g) = more x r (turned e x h.g) := by unfold strGoes; rw [hr]
      rw [hgo, hmo]
      rw [← g3] at ho ⊢
      by_cases hk0 : k = 0
      · rw [if_pos hk0, hk0]
        exact ⟨h3, rfl, c3, rfl, ho⟩
      · rw [if_neg hk0]
        cases hg : StringOps.goOn r (sview e x h3.g)
        · rw [Bool.and_false, if_neg (by simp), if_neg (by simp)]
          exact ⟨h3, rfl, c3, rfl, ho⟩
        · rw [Bool.and_true, if_pos rfl, if_pos (by simpa using hk0)]
          obtain ⟨k, rfl⟩ := Nat.exists_eq_succ_of_ne_zero hk0
          refine Follows.trans ho (ih k h3 c3 ?_ (by omega))
          rw [← count_view e, g3]
          exact hcnt

theorem repStart_run (e : Env) (x : StrInsn) (h : Host.St) (hc : h.r .rcx = e.ctx) (r : StringOps.Rep) (hr : x.rep = some r) :
    ∃ h', run e 0 (repStart x) h = .next (if countOf x h.g = 0 then 1 else 0) h' ∧ h'.r .rcx = e.ctx ∧ h'.g = h.g := by
  unfold repStart
  rw [hr]
  have hz : (StringOps.rdIdx x.a32 (h.g.gpr 1) == 0) = decide (countOf x h.g = 0) := by
    rw [← count_view e]
    unfold StringOps.count sview senc
    dsimp only
    generalize StringOps.rdIdx x.a32 (h.g.gpr 1) = v
    rw [Bool.eq_iff_iff, beq_iff_eq, decide_eq_true_eq]
    exact ⟨fun h => by rw [h]; rfl, fun h => BitVec.eq_of_toNat_eq h⟩
  sexec [hc, BitVec.and_self, hz, decide_eq_true_eq]
  exact ⟨_, rfl, by sexec [hc], by sexec []⟩

/-- The code of a repeated string instruction is `repInstr`. -/
theorem rep_follows (e : Env) (x : StrInsn) (hx : StrOk e x) (r : StringOps.Rep) (hr : x.rep = some r) (n : Nat) (h : Host.St) (hc : h.r .rcx = e.ctx)
    (hn : countOf x h.g ≤ n) : Follows e x h (strExec e x n h) (StringOps.repInstr e.ok (senc x) r (sview e x h.g)) := by
  obtain ⟨h1, r1, c1, g1⟩ := repStart_run e x h hc r hr
  unfold strExec StringOps.repInstr
  rw [r1, count_view]
  by_cases h0 : countOf x h.g = 0
  · rw [if_pos h0, h0]
    exact ⟨h1, rfl, c1, by rw [g1], by rw [g1]; exact fun _ _ => rfl⟩
  · rw [if_neg h0]
    obtain ⟨k, hk⟩ := Nat.exists_eq_succ_of_ne_zero h0
    have := again_run e x hx r hr n k h1 c1 (by rw [g1]; exact hk) (by omega)
    rw [g1] at this
    rw [hk]
    exact Follows.trans (by rw [g1]; exact fun _ _ => rfl) this

theorem valid_enc {x : StrInsn} (hz : x.z ≠ .q) : (senc x).Valid := by
  unfold StringOps.Enc.Valid senc
  cases h : x.z
  · exact .inl rfl
  · exact .inr (.inl rfl)
  · exact .inr (.inr rfl)
  · exact absurd h hz

theorem loop_fault (ok : Guest.Ok) (e : StringOps.Enc) (hv : e.Valid) (r : StringOps.Rep) : ∀ (n : Nat) (s t : StringOps.St), Flags.Clean s.fl →
    StringOps.count e s = n → StringOps.loop ok e r n s = .fault t →
    ∃ m, Reps ok e r m s t ∧ m < n ∧ StringOps.count e t = n - m ∧ (0 < m → StringOps.Spec.repeats r (Flags.flags t.fl).zf = true) ∧
      StringOps.elem ok e t = none ∧ Flags.Clean t.fl := by
  intro n
  induction n with
  | zero => intro s t _ _ h; rw [StringOps.loop] at h; cases h
  | succ n ih =>
    intro s t hc hn h
    rw [StringOps.loop] at h
    cases he : StringOps.elem ok e s with
    | none => rw [he] at h; cases h; exact ⟨0, .zero _, by omega, hn, fun h => absurd h (by omega), he, hc⟩
    | some s1 =>
      rw [he] at h
      dsimp only at h
      obtain ⟨h1, h2⟩ := (StringOps.C65_element ok e hv s hc).2 s1 he
      have hmay : May ok e s := (StringOps.C65_element ok e hv s hc).1.1 ⟨s1, he⟩
      have hturn : StringOps.Spec.Turn e s (StringOps.decCount e s1) := ⟨s1, h1, rfl, StringOps.moves_dec e s1⟩
      have hcnt : StringOps.count e (StringOps.decCount e s1) = n := by
        have := StringOps.count_elem he
        rw [StringOps.count_dec e s1 (by omega)]
        omega
      rw [hcnt] at h
      by_cases h0 : n = 0
      · rw [if_pos h0] at h; cases h
      · rw [if_neg h0] at h
        by_cases hg : StringOps.goOn r (StringOps.decCount e s1) = true
        · rw [if_pos hg] at h
          obtain ⟨m, m1, m2, m3, m4, m5⟩ := ih (StringOps.decCount e s1) t h2 hcnt h
          have hrep := (StringOps.goOn_eq r _ h2).symm.trans hg
          cases m with
          | zero =>
            cases m1
            exact ⟨1, .one hmay hturn, by omega, by omega, fun _ => hrep, m5⟩
          | succ m =>
            exact ⟨m + 2, .more hmay hturn hrep m1, by omega, by omega, fun _ => m4 (by omega), m5⟩
        · rw [if_neg hg] at h; cases h

theorem loop_done (ok : Guest.Ok) (e : StringOps.Enc) (hv : e.Valid) (r : StringOps.Rep) : ∀ (n : Nat) (s t : StringOps.St), Flags.Clean s.fl →
    StringOps.count e s = n → StringOps.loop ok e r n s = .done t →
    ∃ m, Reps ok e r m s t ∧ m ≤ n ∧ (m = n ∨ 0 < m ∧ StringOps.Spec.repeats r (Flags.flags t.fl).zf = false) := by
  intro n
  induction n with
  | zero => intro s t _ _ h; rw [StringOps.loop] at h; cases h; exact ⟨0, .zero _, Nat.le_refl _, .inl rfl⟩
  | succ n ih =>
    intro s t hc hn h
    rw [StringOps.loop] at h
    cases he : StringOps.elem ok e s with
    | none => rw [he] at h; cases h
    | some s1 =>
      rw [he] at h
      dsimp only at h
      obtain ⟨h1, h2⟩ := (StringOps.C65_element ok e hv s hc).2 s1 he
      have hmay : May ok e s := (StringOps.C65_element ok e hv s hc).1.1 ⟨s1, he⟩
      have hturn : StringOps.Spec.Turn e s (StringOps.decCount e s1) := ⟨s1, h1, rfl, StringOps.moves_dec e s1⟩
      have hcnt : StringOps.count e (StringOps.decCount e s1) = n := by
        have := StringOps.count_elem he
        rw [StringOps.count_dec e s1 (by omega)]
        omega
      rw [hcnt] at h
      by_cases h0 : n = 0
      · rw [if_pos h0] at h
        cases h
        subst h0
        exact ⟨1, .one hmay hturn, Nat.le_refl _, .inl rfl⟩
      · rw [if_neg h0] at h
        by_cases hg : StringOps.goOn r (StringOps.decCount e s1) = true
        · rw [if_pos hg] at h
          obtain ⟨m, m1, m2, m3⟩ := ih (StringOps.decCount e s1) t h2 hcnt h
          have hm0 : m ≠ 0 := by omega
          obtain ⟨m, rfl⟩ := Nat.exists_eq_succ_of_ne_zero hm0
          refine ⟨m + 2, .more hmay hturn ((StringOps.goOn_eq r _ h2).symm.trans hg) m1, by omega, ?_⟩
          rcases m3 with m3 | m3
          · left; omega
          · right; exact ⟨by omega, m3.2⟩
        · rw [if_neg hg] at h
          cases h
          refine ⟨1, .one hmay hturn, by omega, .inr ⟨by omega, ?_⟩⟩
          rw [← StringOps.goOn_eq r (StringOps.decCount e s1) h2]
          simpa using hg

theorem elemMay_iff (e : Env) (x : StrInsn) (hz : x.z ≠ .q) (g : G) (hcl : Flags.Clean g.fl) :
    (∃ t, StringOps.elem e.ok (senc x) (sview e x g) = some t) ↔ May e.ok (senc x) (sview e x g) :=
  (StringOps.C65_element e.ok (senc x) (valid_enc hz) (sview e x g) hcl).1

theorem elem_eflags {e : StringOps.Enc} {s t : StringOps.St} (h : StringOps.Spec.Elem e s t) : t.fl.eflags = s.fl.eflags := by
  unfold StringOps.Spec.Elem at h
  dsimp only at h
  split at h
  · rw [h.1]
  · rw [h.1]
  · rw [h.1]
  · exact h.2.1
  · exact h.2.1
theorem turns_eflags {ok : Guest.Ok} {e : StringOps.Enc} {r : StringOps.Rep} {n : Nat} {s t : StringOps.St} (h : Reps ok e r n s t) :
    t.fl.eflags = s.fl.eflags := by
  have turn : ∀ {s t : StringOps.St}, StringOps.Spec.Turn e s t → t.fl.eflags = s.fl.eflags := fun {s t} h => by
    obtain ⟨u, h1, h2, -⟩ := h
    have := elem_eflags h1
    rw [h2]
    exact this
  induction h with
  | zero => rfl
  | one _ h => exact turn h
  | more _ h _ _ ih => exact ih.trans (turn h)
theorem clean_eflags {s t : Flags.St} (h : t.eflags = s.eflags) (hc : Flags.Clean s) : Flags.Clean t := by
  unfold Flags.Clean
  rw [h]
  exact hc

/-- **C101**, the string instructions: the emitted code of MOVS, STOS, LODS, CMPS, SCAS, with any prefix, element size, address size and direction,
ends for every count: either with the instruction complete, or at the first element that may not be accessed, with every element before it complete and
the count of those that remain, so that executing the instruction again goes on there. -/
theorem C101_string (e : Env) (x : StrInsn) (hx : StrOk e x) (n : Nat) (h : Host.St) (hc : h.r .rcx = e.ctx) (hcl : Flags.Clean h.g.fl)
    (hn : countOf x h.g ≤ n ∧ 0 < n) :
    (∃ h', strExec e x n h = .next 0 h' ∧ h'.r .rcx = e.ctx ∧ StrDone e x h.g h'.g ∧ Flags.Clean h'.g.fl) ∨
    (∃ g', strExec e x n h = .fault g' ∧ StrFault e x h.g g' ∧ Flags.Clean g'.fl) := by
  have hv := valid_enc hx.1
  cases hr : x.rep with
  | none =>
    obtain ⟨h1, h2⟩ := turn_run e x h hx hc
    have hel := sview_elem e x h.g hx.1
    have hex : strExec e x n h = again e (strTurn x) n h := by
      unfold strExec repStart
      rw [hr]
      rfl
    obtain ⟨k, rfl⟩ := Nat.exists_eq_succ_of_ne_zero (Nat.pos_iff_ne_zero.1 hn.2)
    rw [hex, again]
    cases hm : may e x h.g
    · right
      rw [hm] at hel
      refine ⟨h.g, by rw [h2 hm], ?_, hcl⟩
      unfold StrFault
      rw [hr]
      refine ⟨fun _ _ => rfl, fun hmay => ?_, rfl⟩
      obtain ⟨t, ht⟩ := (elemMay_iff e x hx.1 h.g hcl).2 hmay
      rw [hel] at ht
      cases ht
    · left
      obtain ⟨h3, r3, c3, g3⟩ := h1 hm
      rw [hm, if_pos rfl] at hel
      have ht : turned e x h.g = slide x (h.g.fl.eflags.getLsbD 10) (mid e x h.g) := by unfold turned; rw [hr]; rfl
      have hgo : strGoes x (turned e x h.g) = false := by unfold strGoes; rw [hr]
      rw [← ht, ← g3] at hel
      obtain ⟨q1, q2⟩ := (StringOps.C65_element e.ok (senc x) hv (sview e x h.g) hcl).2 _ hel
      rw [hgo] at r3
      refine ⟨h3, by rw [r3]; rfl, c3, ?_, q2⟩
      unfold StrDone
      rw [hr]
      exact ⟨by rw [g3]; exact turned_others e x h.g, (elemMay_iff e x hx.1 h.g hcl).1 ⟨_, hel⟩, q1⟩
  | some r =>
    have hf := rep_follows e x hx r hr n h hc hn.1
    cases ho : StringOps.repInstr e.ok (senc x) r (sview e x h.g) with
    | done t =>
      rw [ho] at hf
      obtain ⟨h', a, b, c, d⟩ := hf
      left
      rw [← c] at ho
      refine ⟨h', a, b, ?_, ?_⟩
      · unfold StrDone
        rw [hr]
        rw [← count_view e]
        exact ⟨d, loop_done e.ok (senc x) hv r _ _ _ hcl rfl ho⟩
      · obtain ⟨m, m1, -⟩ := loop_done e.ok (senc x) hv r _ _ _ hcl rfl ho
        exact clean_eflags (turns_eflags m1) hcl
    | fault t =>
      rw [ho] at hf
      obtain ⟨g', a, c, d⟩ := hf
      right
      rw [← c] at ho
      obtain ⟨m, m1, m2, m3, m4, m5, m6⟩ := loop_fault e.ok (senc x) hv r _ _ _ hcl rfl ho
      rw [count_view] at m2 m3
      rw [count_view] at m3
      refine ⟨g', a, ?_, m6⟩
      unfold StrFault
      rw [hr]
      refine ⟨d, fun hmay => ?_, m, m1, m2, m3, m4⟩
      obtain ⟨t, ht⟩ := (elemMay_iff e x hx.1 g' m6).2 hmay
      rw [m5] at ht
      cases ht

/-- What the guest sees of an outcome: whether the instruction completed, and the state. -/
def seen : Out → Option (Bool × G)
  | .next 0 h => some (true, h.g)
  | .next (_ + 1) _ => none
  | .fault g => some (false, g)
  | .stuck => none

theorem sview_ext {e : Env} {x : StrInsn} {g g1 g2 : G} (h : sview e x g1 = sview e x g2) (h1 : OthersStay g g1) (h2 : OthersStay g g2) : g1 = g2 := by
  have q := fun i hi => (h1 i hi).trans (h2 i hi).symm
  unfold sview at h
  injection h with a1 a2 a3 a4 a5 a6 a7 a8 a9
  cases g1 with | mk r1 f1 m1 => cases g2 with | mk r2 f2 m2 =>
  dsimp only at *
  subst a1 a9
  congr 1
  funext i
  match i with
  | 0 => exact a5
  | 1 => exact a4
  | 2 => exact q 2 (.inl rfl)
  | 3 => exact q 3 (.inr (.inl rfl))
  | 4 => exact q 4 (.inr (.inr (.inl rfl)))
  | 5 => exact q 5 (.inr (.inr (.inr rfl)))
  | 6 => exact a2
  | 7 => exact a3

theorem follows_seen {e : Env} {x : StrInsn} {h h' : Host.St} {o o' : Out} {t : StringOps.Out} (hs : OthersStay h.g h'.g) (hf : Follows e x h o t)
    (hf' : Follows e x h' o' t) : seen o = seen o' ∧ (seen o).isSome = true := by
  cases t
  · obtain ⟨a, rfl, b, c, d⟩ := hf
    obtain ⟨a', rfl, b', c', d'⟩ := hf'
    exact ⟨congrArg (fun g => some (true, g)) (sview_ext (c.trans c'.symm) d (others_trans hs d')), rfl⟩
  · obtain ⟨a, rfl, c, d⟩ := hf
    obtain ⟨a', rfl, c', d'⟩ := hf'
    exact ⟨congrArg (fun g => some (false, g)) (sview_ext (c.trans c'.symm) d (others_trans hs d')), rfl⟩

theorem none_seen {e : Env} {x : StrInsn} (hx : StrOk e x) (hr : x.rep = none) {n : Nat} (hn : 0 < n) {h : Host.St} (hc : h.r .rcx = e.ctx) :
    seen (strExec e x n h) = some (if may e x h.g then (true, turned e x h.g) else (false, h.g)) := by
  obtain ⟨h1, h2⟩ := turn_run e x h hx hc
  have hex : strExec e x n h = again e (strTurn x) n h := by
    unfold strExec repStart
    rw [hr]
    rfl
  have hgo : strGoes x (turned e x h.g) = false := by unfold strGoes; rw [hr]
  obtain ⟨k, rfl⟩ := Nat.exists_eq_succ_of_ne_zero (Nat.pos_iff_ne_zero.1 hn)
  rw [hex, again]
  cases hm : may e x h.g
  · rw [h2 hm]; rfl
  · obtain ⟨h3, r3, c3, g3⟩ := h1 hm
    rw [r3, hgo, ← g3]
    rfl

/-- **C101**, restarting: an instruction that faulted and is executed again, from the guest state it left and whatever the host registers hold, once more
accesses are allowed, has the outcome it would have had if they had been allowed from the start. -/
theorem C101_restart (e e2 : Env) (x : StrInsn) (hx : StrOk e x) (hseg : e2.seg = e.seg) (hle : ∀ a k w, e.ok a k w = true → e2.ok a k w = true)
    (n : Nat) (h h2 h3 : Host.St) (hc : h.r .rcx = e.ctx) (hn : countOf x h.g ≤ n ∧ 0 < n) (g' : G) (hf : strExec e x n h = .fault g')
    (hg2 : h2.g = g') (hc2 : h2.r .rcx = e2.ctx) (hg3 : h3.g = h.g) (hc3 : h3.r .rcx = e2.ctx) :
    seen (strExec e2 x n h2) = seen (strExec e2 x n h3) ∧ (seen (strExec e2 x n h3)).isSome = true := by
  have hx2 : StrOk e2 x := by unfold StrOk; rw [hseg]; exact hx
  cases hr : x.rep with
  | none =>
    have := none_seen hx hr hn.2 hc
    rw [hf] at this
    rw [none_seen hx2 hr hn.2 hc2, none_seen hx2 hr hn.2 hc3, hg2, hg3]
    cases hm : may e x h.g
    · rw [hm] at this
      have hg : g' = h.g := congrArg (fun o : Option (Bool × G) => (o.getD (false, g')).2) this
      rw [hg]
      exact ⟨rfl, rfl⟩
    · rw [hm] at this
      cases this
  | some r =>
    have hv : ∀ g, sview e2 x g = sview e x g := fun g => by unfold sview; rw [hseg]
    have f1 := rep_follows e x hx r hr n h hc hn.1
    have f3 := rep_follows e2 x hx2 r hr n h3 hc3 (by rw [hg3]; exact hn.1)
    rw [hf] at f1
    cases ho : StringOps.repInstr e.ok (senc x) r (sview e x h.g) with
    | done t =>
      rw [ho] at f1
      obtain ⟨h', a, -⟩ := f1
      cases a
    | fault t =>
      rw [ho] at f1
      obtain ⟨g1, a, b, c⟩ := f1
      cases a
      have hres := (StringOps.loop_resume hle (senc x) r _ _ rfl).2 t ho
      rw [← b] at hres ho
      obtain ⟨j, j1, j2, j3, -⟩ := StringOps.C65_fault_state e.ok (senc x) r _ _ ho
      have f2 := rep_follows e2 x hx2 r hr n h2 hc2 (by
        rw [hg2, ← count_view e, j3, count_view e]
        omega)
      rw [hg3, hv] at f3
      rw [hg2, hv] at f2
      have heq : StringOps.repInstr e2.ok (senc x) r (sview e x g') = StringOps.repInstr e2.ok (senc x) r (sview e x h.g) := hres
      rw [heq] at f2
      have := follows_seen (by rw [hg2, hg3]; exact c) f3 f2
      exact ⟨this.1.symm, this.2⟩

/-! Non-trivial cases: memory at address a holds the byte a (mod 256) below 0x2010 and 0x80 from there on; writable below 0x3000 only. -/

/-- Example string instruction. -/
def exStr (i : StringOps.Instr) (z : Sz) (a32 : Bool) (r : Option StringOps.Rep) : StrInsn := ⟨i, z, a32, 3, true, false, r⟩
/-- Example state for them: EAX, ECX, ESI, EDI, DF. -/
def exIdx (a c s d : BitVec 32) (df : Bool) : Host.St :=
  { exSt with g := { gpr := fun i => if i = 0 then a else if i = 1 then c else if i = 6 then s else if i = 7 then d else 0x55#32
                     fl := ⟨if df then 0x402#32 else 2#32, 0x100#32, 0#32⟩
                     mem := fun b => if b.toNat < 0x2010 then b.setWidth 8 else 0x80#8 } }
/-- What is left: whether it completed, ECX, ESI, EDI, two bytes and ZF. -/
def exSeen (o : Out) (a b : BitVec 32) : Option (Bool × List Nat × Bool) :=
  (seen o).map fun p => (p.1, [(p.2.gpr 1).toNat, (p.2.gpr 6).toNat, (p.2.gpr 7).toNat, (p.2.mem a).toNat, (p.2.mem b).toNat], (Flags.flags p.2.fl).zf)

example (i : StringOps.Instr) (r : Option StringOps.Rep) : StrOk exEnv (exStr i .w true r) := by
  refine ⟨?_, ?_, ?_⟩ <;> intro h <;> cases h
  rfl
example (a c s d : BitVec 32) (f : Bool) : (exIdx a c s d f).r .rcx = exEnv.ctx ∧ Flags.Clean (exIdx a c s d f).g.fl := by
  refine ⟨rfl, ?_⟩
  cases f
  · show 2#32 &&& _ = _
    decide
  · show 0x402#32 &&& _ = _
    decide
-- REP STOSB, five bytes at 0x2FFE: two are stored, the third faults
example : exSeen (strExec exEnv (exStr .stos .b true (some .rep)) 5 (exIdx 0x77#32 5#32 0#32 0x2FFE#32 false)) 0x2FFF#32 0x3000#32 =
    some (false, [3, 0, 0x3000, 0x77, 0x80], false) := by decide +kernel
-- REP MOVSW downwards with 16-bit addresses: the halves above stay
example : exSeen (strExec exEnv (exStr .movs .w false (some .rep)) 9 (exIdx 0#32 0xAB0002#32 0xCD0000#32 0xEF1000#32 true)) 0x1001#32 0xFFE#32 =
    some (true, [0xAB0000, 0xCDFFFC, 0xEF0FFC, 0x01, 0x80], false) := by decide +kernel
-- REPE CMPSB: 0x0F against 0x0F, then 0x80 against 0x10
example : exSeen (strExec exEnv (exStr .cmps .b true (some .repz)) 4 (exIdx 0#32 4#32 0x200F#32 0x0F#32 false)) 0#32 0#32 =
    some (true, [2, 0x2011, 0x11, 0x00, 0x00], false) := by decide +kernel
-- REPNE SCASB for 0x12
example : exSeen (strExec exEnv (exStr .scas .b true (some .repnz)) 9 (exIdx 0x12#32 9#32 0#32 0x1010#32 false)) 0#32 0#32 =
    some (true, [6, 0, 0x1013, 0x00, 0x00], true) := by decide +kernel
-- LODSD without a prefix leaves the count; a count of zero does nothing
example : exSeen (strExec exEnv (exStr .lods .d true none) 1 (exIdx 0#32 7#32 0x1010#32 0#32 false)) 0#32 0#32 =
    some (true, [7, 0x1014, 0, 0x00, 0x00], false) := by decide +kernel
example : exSeen (strExec exEnv (exStr .stos .d true (some .rep)) 1 (exIdx 0#32 0#32 0x1010#32 0x4000#32 false)) 0#32 0#32 =
    some (true, [0, 0x1010, 0x4000, 0x00, 0x00], false) := by decide +kernel

end Verif.Emit
