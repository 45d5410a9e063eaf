import Verif.Lemmas.EmitJump
import Verif.Lemmas.EmitBlock
import Verif.Spec.EmitJump
import Verif.Props.EmitBlock
import Verif.Props.Near
/-
C100: near jumps, calls and returns as emitted, and blocks that end with one.
-/
namespace Verif.Emit
open Host Guest
open Spec
open Flags

theorem next_spec (t : Site) : t.next = follows t := by
  apply BitVec.eq_of_toNat_eq
  unfold Site.next follows
  simp only [BitVec.toNat_add, BitVec.toNat_ofNat]
  omega

theorem target_spec (t : Site) (rel : BitVec 64) : t.target rel = goes t rel := by
  have h0 : (t.next.setWidth 64 + rel).setWidth 32 = BitVec.ofInt 32 (t.eip.toNat + t.len + rel.toInt) := by
    apply BitVec.eq_of_toInt_eq
    rw [BitVec.toInt_ofInt]
    have := BitVec.toInt_eq_toNat_bmod ((t.next.setWidth 64 + rel).setWidth 32)
    rw [this, next_spec]
    unfold follows
    simp only [BitVec.toNat_setWidth, BitVec.toNat_add, BitVec.toNat_ofNat, BitVec.toInt_eq_toNat_bmod]
    rw [Int.bmod_def, Int.bmod_def, Int.bmod_def]
    have := rel.isLt
    split <;> split <;> split <;> omega
  unfold Site.target goes
  simp only [h0]
  generalize (t.eip.toNat + t.len + rel.toInt : Int) = x
  cases t.size32
  · rw [if_neg (by decide), if_neg (by decide)]
    have : ∀ y : BitVec 32, y &&& 0xFFFF#32 = BitVec.ofNat 32 (y.toNat % 2 ^ 16) := by
      intro y
      apply BitVec.eq_of_toNat_eq
      rw [BitVec.toNat_and, BitVec.toNat_ofNat]
      show y.toNat &&& (2 ^ 16 - 1) = _
      rw [Nat.and_two_pow_sub_one_eq_mod, BitVec.toNat_ofNat]
      have := y.isLt
      omega
    rw [this]
    apply BitVec.eq_of_toNat_eq
    rw [BitVec.toNat_ofNat, BitVec.toNat_ofInt, BitVec.toNat_ofInt]
    omega
  · rw [if_pos rfl, if_pos rfl]
    apply BitVec.eq_of_toNat_eq
    rw [BitVec.toNat_ofInt, BitVec.toNat_ofInt]
    omega

theorem sz_eq (t : Site) : t.sz = opSize t := rfl
theorem opSize_or (t : Site) : opSize t = .w ∨ opSize t = .d := by
  unfold opSize; cases t.size32 <;> simp

theorem zext_run {e : Env} {h : Host.St} (hc : h.r .rcx = e.ctx) {z : Sz} (hz : z = .w ∨ z = .d) :
    ∃ h', run e 0 (zext16 z) h = .next 0 h' ∧ h'.g = h.g ∧ h'.r .rcx = e.ctx ∧ (rd h' .d .rax).toNat = (rd h z .rax).toNat := by
  unfold zext16
  rcases hz with rfl | rfl
  · rw [if_pos rfl]
    hexec' []
    refine ⟨_, rfl, ?_⟩
    hexec' [hc]
    refine ⟨trivial, trivial, ?_⟩
    have : ∀ x : BitVec 16, (BitVec.setWidth 32 x).toNat = x.toNat := by
      intro x; rw [BitVec.toNat_setWidth]; have := x.isLt; omega
    exact this _
  · rw [if_neg (by decide)]
    exact ⟨h, rfl, rfl, hc, rfl⟩

theorem jmpRm_run {z : Sz} (hz : z = .w ∨ z = .d) {e : Env} {h : Host.St} (hc : h.r .rcx = e.ctx) (rm : Rm) :
    ((ofRm rm).ok e z false = true → ∃ h', run e 0 (jmpRmCode z rm) h = .next 0 h' ∧ h'.g = h.g ∧ h'.r .rcx = e.ctx ∧
      (rd h' .d .rax).toNat = ((ofRm rm).get h.g z).toNat) ∧
    ((ofRm rm).ok e z false = false → run e 0 (jmpRmCode z rm) h = .fault h.g) := by
  unfold jmpRmCode
  refine ⟨fun hk => ?_, fun hk => run_append_fault _ (ldRm_fault hc rm hk)⟩
  obtain ⟨h1, r1, g1, c1, v1, -⟩ := ldRm_run hc rm hk
  obtain ⟨h2, r2, g2, c2, v2⟩ := zext_run c1 hz
  rw [run_append _ r1]
  exact ⟨h2, r2, g2.trans g1, c2, by rw [v2, v1]⟩

theorem callRm_run {z : Sz} (hz : z = .w ∨ z = .d) {e : Env} {h : Host.St} (hc : h.r .rcx = e.ctx) {s : Ss} (hf : FlatOk e s) (ret : BitVec 32)
    (rm : Rm) :
    ((ofRm rm).ok e z false = true ∧ e.ok (slot e (down s h.g z.bytes)) z.bytes true = true →
      ∃ h', run e 0 (callRmCode s z ret rm) h = .next 0 h' ∧ h'.r .rcx = e.ctx ∧
      SpAt s h.g h'.g (down s h.g z.bytes) (store h.g.mem (slot e (down s h.g z.bytes)) z.bytes (ret.setWidth z.bits).toNat) ∧
      (rd h' .d .rax).toNat = ((ofRm rm).get h.g z).toNat) ∧
    (¬ ((ofRm rm).ok e z false = true ∧ e.ok (slot e (down s h.g z.bytes)) z.bytes true = true) →
      run e 0 (callRmCode s z ret rm) h = .fault h.g) := by
  have hcode : callRmCode s z ret rm = ldRm z rm ++ ([.stL .d 0 .rax] ++ (pushCode s z (some (ret.setWidth 64)) ++ ([.ldL .d .rax 0] ++ zext16 z))) := by
    unfold callRmCode; simp only [List.append_assoc]
  rw [hcode]
  by_cases hk : (ofRm rm).ok e z false = true
  · obtain ⟨h1, r1, g1, c1, v1, -⟩ := ldRm_run hc rm hk
    obtain ⟨h2, r2, g2, c2, l2⟩ : ∃ h2, run e 0 [.stL .d 0 .rax] h1 = .next 0 h2 ∧ h2.g = h1.g ∧ h2.r .rcx = e.ctx ∧ rdL h2 .d 0 = rd h1 .d .rax := by
      hexec' []
      refine ⟨_, rfl, ?_⟩
      hexec' [c1]
      exact ⟨trivial, trivial, trivial⟩
    have hp := push_spec c2 hf hz (some (ret.setWidth 64))
    have hv : pushVal h2 z (some (ret.setWidth 64)) = ret.setWidth z.bits := by
      rcases hz with rfl | rfl
      · exact BitVec.setWidth_setWidth_of_le _ (by decide)
      · exact BitVec.setWidth_setWidth_of_le _ (by decide)
    rw [g2, g1, hv] at hp
    rw [run_append _ r1, run_append _ r2]
    refine ⟨fun hw => ?_, fun hn => run_append_fault _ (hp.2 (Bool.eq_false_iff.2 fun hw => hn ⟨hk, hw⟩))⟩
    obtain ⟨h3, r3, c3, l3, s3⟩ := hp.1 hw.2
    obtain ⟨h4, r4, g4, c4, v4⟩ : ∃ h4, run e 0 [.ldL .d .rax 0] h3 = .next 0 h4 ∧ h4.g = h3.g ∧ h4.r .rcx = e.ctx ∧ rd h4 .d .rax = rd h1 .d .rax := by
      hexec' []
      refine ⟨_, rfl, ?_⟩
      hexec' [c3]
      refine ⟨trivial, trivial, ?_⟩
      rw [← l2]; unfold rdL; rw [l3]
    obtain ⟨h5, r5, g5, c5, v5⟩ := zext_run c4 hz
    rw [run_append _ r3, run_append _ r4]
    refine ⟨h5, r5, c5, by rw [g5, g4]; exact s3, ?_⟩
    rw [v5, ← v1]
    have : ∀ a b : Host.St, rd a .d .rax = rd b .d .rax → rd a z .rax = rd b z .rax := by
      intro a b hab
      rcases hz with rfl | rfl
      · have hx : ∀ y : Host.St, rd y .w .rax = (rd y .d .rax).setWidth 16 := fun y =>
          (BitVec.setWidth_setWidth_of_le (y.r .rax) (show 16 ≤ 32 by decide)).symm
        rw [hx, hx, hab]
      · exact hab
    rw [this h4 h1 v4]
  · refine ⟨fun hw => absurd hw.1 hk, fun _ => run_append_fault _ (ldRm_fault hc rm (Bool.eq_false_iff.2 hk))⟩

theorem addEsp_run {e : Env} {h : Host.St} (hc : h.r .rcx = e.ctx) (s : Ss) (v : BitVec 64) {g0 : G} {n : Nat} (hs : SpAt s g0 h.g (up s g0 n) g0.mem) :
    ∃ h', run e 0 (addEspCode s v) h = .next 0 h' ∧ h'.r .rcx = e.ctx ∧ h'.r .r8 = h.r .r8 ∧ SpAt s g0 h'.g (up s g0 (n + v.toNat)) g0.mem := by
  unfold addEspCode
  obtain ⟨ss32, flat⟩ := s
  have hvl := v.isLt
  have hoff := hs.off
  unfold spOff spMod at hoff
  unfold up at hoff ⊢
  cases ss32
  · have hw : spSz (Ss.mk false flat).ss32 = .w := rfl
    rw [hw]
    hexec' [hc]
    refine ⟨_, rfl, ?_⟩
    hexec' [hc]
    refine ⟨trivial, trivial, ?_⟩
    have h4 : ∀ (r : BitVec 32) (x : BitVec 16), ((r &&& 0xFFFF0000#32) ||| BitVec.setWidth 32 x).toNat = r.toNat / 2 ^ 16 * 2 ^ 16 + x.toNat :=
      Stack.setLow_toNat
    have hg : (wrG h.g .w esp (rdG h.g .w esp + v.setWidth 16)).gpr 4 =
        (h.g.gpr 4 &&& 0xFFFF0000#32) ||| BitVec.setWidth 32 ((h.g.gpr 4).setWidth 16 + v.setWidth 16 : BitVec 16) := rfl
    refine ⟨?_, fun h0 => ?_, fun i hi => ?_, hs.flags, hs.mem⟩
    · show ((wrG h.g .w esp (rdG h.g .w esp + v.setWidth 16)).gpr 4).toNat % _ = _
      rw [hg, h4]
      simp only [BitVec.toNat_add, BitVec.toNat_setWidth]
      unfold spMod spOff spMod at hoff ⊢
      simp only [Bool.false_eq_true, if_false] at hoff ⊢
      omega
    · show ((wrG h.g .w esp (rdG h.g .w esp + v.setWidth 16)).gpr 4).toNat / _ = _
      rw [hg, h4, ← hs.high rfl]
      have := ((h.g.gpr 4).setWidth 16 + v.setWidth 16 : BitVec 16).isLt
      omega
    · exact (if_neg hi).trans (hs.regs i hi)
  · have hw : spSz (Ss.mk true flat).ss32 = .d := rfl
    rw [hw]
    hexec' [hc]
    refine ⟨_, rfl, ?_⟩
    hexec' [hc]
    refine ⟨trivial, trivial, ?_⟩
    have hg : (wrG h.g .d esp (rdG h.g .d esp + v.setWidth 32)).gpr 4 = (h.g.gpr 4).setWidth 32 + v.setWidth 32 := rfl
    refine ⟨?_, fun h0 => (by cases h0), fun i hi => ?_, hs.flags, hs.mem⟩
    · show ((wrG h.g .d esp (rdG h.g .d esp + v.setWidth 32)).gpr 4).toNat % _ = _
      rw [hg]
      simp only [BitVec.toNat_add, BitVec.toNat_setWidth]
      unfold spMod spOff spMod at hoff ⊢
      simp only [if_true] at hoff ⊢
      omega
    · exact (if_neg hi).trans (hs.regs i hi)

theorem retCode_run {z : Sz} (hz : z = .w ∨ z = .d) {e : Env} {h : Host.St} (hc : h.r .rcx = e.ctx) {s : Ss} (hf : FlatOk e s) (imm : Option (BitVec 64)) :
    (e.ok (slot e (spOff s h.g)) z.bytes false = true → ∃ h', run e 0 (retCode s z imm) h = .next 0 h' ∧ h'.r .rcx = e.ctx ∧
      SpAt s h.g h'.g (up s h.g (z.bytes + (imm.getD 0#64).toNat)) h.g.mem ∧
      (rd h' .d .r8).toNat = load h.g.mem (slot e (spOff s h.g)) z.bytes) ∧
    (e.ok (slot e (spOff s h.g)) z.bytes false = false → run e 0 (retCode s z imm) h = .fault h.g) := by
  obtain ⟨s1, s2⟩ := popVal_spec hf h.g hz
  have hr := popCode_run hc s z true
  unfold retCode
  refine ⟨fun hk => ?_, fun hk => ?_⟩
  · obtain ⟨p, p1, p2⟩ := s1 hk
    rw [p1] at hr
    obtain ⟨-, vb, h1, r1, g1, c1, -, v1, -⟩ := hr
    rw [if_pos rfl] at g1
    obtain ⟨h2, r2, g2, c2, v2⟩ : ∃ h2, run e 0 (if z = .w then [.movzx .w .r8 .r8] else []) h1 = .next 0 h2 ∧ h2.g = h1.g ∧ h2.r .rcx = e.ctx ∧
        (rd h2 .d .r8).toNat = (rd h1 z .r8).toNat := by
      rcases hz with rfl | rfl
      · rw [if_pos rfl]
        hexec' []
        refine ⟨_, rfl, ?_⟩
        hexec' [c1]
        refine ⟨trivial, trivial, ?_⟩
        have : ∀ x : BitVec 16, (BitVec.setWidth 32 x).toNat = x.toNat := by
          intro x; rw [BitVec.toNat_setWidth]; have := x.isLt; omega
        exact this _
      · rw [if_neg (by decide)]
        exact ⟨h1, rfl, rfl, c1, rfl⟩
    have e2 : (rd h2 .d .r8).toNat = load h.g.mem (slot e (spOff s h.g)) z.bytes := by
      rw [v2, v1, BitVec.toNat_ofNat, Nat.mod_eq_of_lt vb]
    rw [run_append _ r1, run_append _ r2]
    have p2' : SpAt s h.g h2.g (up s h.g z.bytes) h.g.mem := by rw [g2, g1]; exact p2
    cases imm with
    | none => exact ⟨h2, rfl, c2, p2', e2⟩
    | some v =>
      obtain ⟨h3, r3, c3, k3, s3⟩ := addEsp_run c2 s v p2'
      exact ⟨h3, r3, c3, s3, by unfold rd; rw [k3]; exact e2⟩
  · rw [s2 hk] at hr
    exact run_append_fault _ hr

theorem wrG_w_toNat (g : G) (x : BitVec 16) (r : Fin 8) : ((wrG g .w ⟨r, false⟩ x).gpr r).toNat = (g.gpr r).toNat / 2 ^ 16 * 2 ^ 16 + x.toNat := by
  have : (wrG g .w ⟨r, false⟩ x).gpr r = Stack.setLow (g.gpr r) x := if_pos rfl
  rw [this, Stack.setLow_toNat]

theorem loopCount_toNat (a32 : Bool) (g : G) :
    Counted a32 g (wrG g (if a32 then .d else .w) ecx ((loopCount a32 g).setWidth _)) ∧
    (loopCount a32 g = 0#32 ↔ counter a32 (wrG g (if a32 then .d else .w) ecx ((loopCount a32 g).setWidth _)) = 0) := by
  have hl := (g.gpr 1).isLt
  cases a32
  · have hw : ∀ x : BitVec 32, ((wrG g (if false = true then .d else .w) ecx (x.setWidth _)).gpr 1).toNat = (g.gpr 1).toNat / 2 ^ 16 * 2 ^ 16 + x.toNat % 2 ^ 16 := by
      intro x
      have := wrG_w_toNat g (x.setWidth 16) 1
      rw [BitVec.toNat_setWidth] at this
      exact this
    have hn : (loopCount false g).toNat = ((g.gpr 1).toNat % 2 ^ 16 + (2 ^ 32 - 1)) % 2 ^ 32 := by
      show ((((g.gpr 1).setWidth 16).setWidth 32 - 1#32 : BitVec 32)).toNat = _
      rw [BitVec.toNat_sub, BitVec.toNat_setWidth, BitVec.toNat_setWidth]
      show (2 ^ 32 - 1 + _) % 2 ^ 32 = _
      omega
    have hz : loopCount false g = 0#32 ↔ (loopCount false g).toNat = 0 := ⟨fun h => by rw [h]; rfl, fun h => BitVec.eq_of_toNat_eq h⟩
    refine ⟨⟨?_, fun _ => ?_, fun i hi => if_neg hi, rfl, rfl⟩, ?_⟩
    · unfold counter
      rw [hw, hn]
      simp only [Bool.false_eq_true, if_false]
      omega
    · rw [hw, hn]; omega
    · rw [hz]
      unfold counter
      rw [hw, hn]
      simp only [Bool.false_eq_true, if_false]
      omega
  · have hw : ∀ x : BitVec 32, ((wrG g (if true = true then .d else .w) ecx (x.setWidth _)).gpr 1).toNat = x.toNat := by
      intro x
      exact congrArg BitVec.toNat (BitVec.setWidth_eq x)
    have hn : (loopCount true g).toNat = ((g.gpr 1).toNat + (2 ^ 32 - 1)) % 2 ^ 32 := by
      show (g.gpr 1 - 1#32 : BitVec 32).toNat = _
      rw [BitVec.toNat_sub]
      show (2 ^ 32 - 1 + _) % 2 ^ 32 = _
      omega
    have hz : loopCount true g = 0#32 ↔ (loopCount true g).toNat = 0 := ⟨fun h => by rw [h]; rfl, fun h => BitVec.eq_of_toNat_eq h⟩
    refine ⟨⟨?_, fun h => (by cases h), fun i hi => if_neg hi, rfl, rfl⟩, ?_⟩
    · unfold counter
      rw [hw, hn]
      simp only [if_true]
      omega
    · rw [hz]
      unfold counter
      rw [hw, hn]
      simp only [if_true]
      omega

theorem zext_noEa (z : Sz) : (zext16 z).all noEa = true := by cases z <;> rfl
theorem jmpRm_oneEa (t : Site) : OneEa fun a => jmpRmCode (opSize t) (.mem a) :=
  oneEa [] (.ldMem (opSize t) :: zext16 (opSize t)) rfl (by rw [List.all_cons, zext_noEa]; rfl) fun a => rfl
theorem callRm_oneEa (s : Ss) (t : Site) : OneEa fun a => callRmCode s (opSize t) t.next (.mem a) :=
  oneEa [] ([.ldMem (opSize t)] ++ [.stL .d 0 .rax] ++ pushCode s (opSize t) (some (t.next.setWidth 64)) ++ [.ldL .d .rax 0] ++ zext16 (opSize t)) rfl
    (by
      rw [List.all_append, List.all_append, zext_noEa]
      obtain ⟨ss32, flat⟩ := s
      rcases opSize_or t with hz | hz <;> rw [hz] <;> cases ss32 <;> cases flat <;> rfl) fun a => rfl

/-- C100, one jump: Jcc, JCXZ, LOOP, LOOPE, LOOPNE, JMP, CALL and RET in all near forms leave EIP and the guest as the architecture says, if the accesses they
make are allowed; otherwise they fault and nothing has changed. -/
theorem C100_jump (j : Jump) (t : Site) {e : Env} {h : Host.St} (hl : JLegal e j) (hc : h.r .rcx = e.ctx) (hcl : Clean h.g.fl) :
    (JRuns e h.g t j → ∃ eip h', execJump e h t j = .next eip h' ∧ h'.r .rcx = e.ctx ∧ JGives e h.g t h'.g eip j) ∧
    (¬ JRuns e h.g t j → execJump e h t j = .fault h.g) := by
  cases j with
  | jcc c rel =>
    obtain ⟨h', r1, g1, c1, v1⟩ := jcc_run hc t.next (t.target rel) c
    refine ⟨fun _ => ⟨rd h' .d .r9, h', ?_, c1, g1, ?_⟩, fun hn => absurd trivial hn⟩
    · show JOut.of t _ (run e 0 (jccCode t.next (t.target rel) c) h) = _
      rw [r1]; exact rfl
    · rw [← Flags.C58_condition _ hcl, ← target_spec, ← next_spec]
      exact v1
  | jcxz a32 rel =>
    obtain ⟨h', r1, g1, c1, v1⟩ := jcxz_run hc a32 t.next (t.target rel)
    refine ⟨fun _ => ⟨rd h' .d .r9, h', ?_, c1, g1, ?_⟩, fun hn => absurd trivial hn⟩
    · show JOut.of t _ (run e 0 (jcxzCode a32 t.next (t.target rel)) h) = _
      rw [r1]; exact rfl
    · rw [← target_spec, ← next_spec]
      refine v1.trans ?_
      have : (if a32 = true then h.g.gpr 1 else ((h.g.gpr 1).setWidth 16).setWidth 32) = 0#32 ↔ counter a32 h.g = 0 := by
        have hb : ∀ x : BitVec 32, x = 0#32 ↔ x.toNat = 0 := fun x => ⟨fun h => by rw [h]; rfl, fun h => BitVec.eq_of_toNat_eq h⟩
        have hx := (h.g.gpr 1).isLt
        rw [hb]
        unfold counter
        cases a32
        · simp only [Bool.false_eq_true, if_false, BitVec.toNat_setWidth]; omega
        · simp only [if_true]; omega
      simp only [this]
  | loop k a32 rel =>
    obtain ⟨h', r1, c1, g1⟩ := loop_run hc k a32
    obtain ⟨k1, k2⟩ := loopCount_toNat a32 h.g
    have hz := Near.zf_eq h.g.fl hcl
    refine ⟨fun _ => ⟨if loopGoes k a32 h.g then t.target rel else t.next, h', ?_, c1, by rw [g1]; exact k1, ?_⟩, fun hn => absurd trivial hn⟩
    · show JOut.of t _ (run e 0 (loopCode k a32) h) = _
      rw [r1]
      cases loopGoes k a32 h.g
      · show JOut.next ((imm32 t.next).val h' .d) h' = _
        rw [imm32_val]; rfl
      · show JOut.next ((imm32 (t.target rel)).val h' .d) h' = _
        rw [imm32_val]; rfl
    · rw [g1, target_spec, next_spec]
      have : loopGoes k a32 h.g = true ↔ counter a32 (wrG h.g (if a32 = true then .d else .w) ecx ((loopCount a32 h.g).setWidth _)) ≠ 0 ∧
          loopCond k (flags h.g.fl).zf = true := by
        rw [← hz, ne_eq, ← k2]
        unfold loopGoes
        cases k <;> simp [loopCond, Flags.ldZf]
      simp only [this]
  | jmp rel =>
    refine ⟨fun _ => ⟨_, h, rfl, hc, rfl, ?_⟩, fun hn => absurd trivial hn⟩
    rw [← target_spec]
    exact imm32_val h _
  | jmpRm o =>
    cases o with
    | reg r =>
      have hp := jmpRm_run (opSize_or t) hc (.reg r)
      obtain ⟨h', r1, g1, c1, v1⟩ := hp.1 rfl
      refine ⟨fun _ => ⟨rd h' .d .rax, h', ?_, c1, g1, .reg r, rfl, v1⟩, fun hn => absurd ⟨.reg r, rfl, rfl⟩ hn⟩
      show JOut.of t _ (run e 0 (jmpRmCode (opSize t) (.reg r)) h) = _
      rw [r1]; exact rfl
    | mem m =>
      have ha := addr_spec h.g hl
      obtain ⟨a, hlin, hr⟩ := realize (jmpRm_oneEa t) m (proper_ok hl) hc
      rw [← hlin] at ha
      have hp := jmpRm_run (opSize_or t) hc (.mem a)
      have hx : execJump e h t (.jmpRm (.mem m)) = JOut.of t (.jmpRm (.mem m)) (run e 0 (jmpRmCode (opSize t) (.mem a)) h) :=
        congrArg (JOut.of t (.jmpRm (.mem m))) (hr _)
      rw [hx]
      refine ⟨fun ⟨p, ⟨b, hb, hpb⟩, hk⟩ => ?_, fun hn => ?_⟩
      · obtain rfl := address_unique ha hb
        subst hpb
        obtain ⟨h', r1, g1, c1, v1⟩ := hp.1 hk
        refine ⟨rd h' .d .rax, h', ?_, c1, g1, _, ⟨_, hb, rfl⟩, v1⟩
        rw [r1]; exact rfl
      · rw [hp.2 (Bool.eq_false_iff.2 fun hk => hn ⟨_, ⟨_, ha, rfl⟩, hk⟩)]; rfl
  | call s rel =>
    have hp := push_spec hc hl (opSize_or t) (some (t.next.setWidth 64))
    have hv : pushVal h (opSize t) (some (t.next.setWidth 64)) = (follows t).setWidth (opSize t).bits := by
      rw [← next_spec]
      rcases opSize_or t with hz | hz <;> rw [hz] <;> exact BitVec.setWidth_setWidth_of_le _ (by decide)
    rw [hv] at hp
    refine ⟨fun hr => ?_, fun hn => ?_⟩
    · obtain ⟨h', r1, c1, -, s1⟩ := hp.1 hr
      refine ⟨t.target rel, h', ?_, c1, s1, target_spec t rel⟩
      show JOut.of t _ (run e 0 (pushCode s (opSize t) (some (t.next.setWidth 64))) h) = _
      rw [r1]
      show JOut.next ((imm32 (t.target rel)).val h' .d) h' = _
      rw [imm32_val]
    · show JOut.of t _ (run e 0 (pushCode s (opSize t) (some (t.next.setWidth 64))) h) = _
      rw [hp.2 (Bool.eq_false_iff.2 hn)]; rfl
  | callRm s o =>
    cases o with
    | reg r =>
      have hp := callRm_run (opSize_or t) hc hl.1 t.next (.reg r)
      have hx : execJump e h t (.callRm s (.reg r)) = JOut.of t (.callRm s (.reg r)) (run e 0 (callRmCode s (opSize t) t.next (.reg r)) h) := rfl
      rw [hx]
      refine ⟨fun ⟨_, hk⟩ => ?_, fun hn => ?_⟩
      · obtain ⟨h', r1, c1, s1, v1⟩ := hp.1 ⟨rfl, hk⟩
        rw [next_spec] at s1
        refine ⟨rd h' .d .rax, h', ?_, c1, s1, _, rfl, v1⟩
        rw [r1]; exact rfl
      · rw [hp.2 fun hk => hn ⟨⟨_, rfl, rfl⟩, hk.2⟩]; rfl
    | mem m =>
      have ha := addr_spec h.g hl.2
      obtain ⟨a, hlin, hr⟩ := realize (callRm_oneEa s t) m (proper_ok hl.2) hc
      rw [← hlin] at ha
      have hp := callRm_run (opSize_or t) hc hl.1 t.next (.mem a)
      have hx : execJump e h t (.callRm s (.mem m)) = JOut.of t (.callRm s (.mem m)) (run e 0 (callRmCode s (opSize t) t.next (.mem a)) h) :=
        congrArg (JOut.of t (.callRm s (.mem m))) (hr _)
      rw [hx]
      refine ⟨fun ⟨⟨p, ⟨b, hb, hpb⟩, hk⟩, hw⟩ => ?_, fun hn => ?_⟩
      · obtain rfl := address_unique ha hb
        subst hpb
        obtain ⟨h', r1, c1, s1, v1⟩ := hp.1 ⟨hk, hw⟩
        rw [next_spec] at s1
        refine ⟨rd h' .d .rax, h', ?_, c1, s1, _, ⟨_, hb, rfl⟩, v1⟩
        rw [r1]; exact rfl
      · rw [hp.2 fun hk => hn ⟨⟨_, ⟨_, ha, rfl⟩, hk.1⟩, hk.2⟩]; rfl
  | ret s imm =>
    have hp := retCode_run (opSize_or t) hc hl imm
    refine ⟨fun hr => ?_, fun hn => ?_⟩
    · obtain ⟨h', r1, c1, s1, v1⟩ := hp.1 hr
      refine ⟨rd h' .d .r8, h', ?_, c1, s1, v1⟩
      show JOut.of t _ (run e 0 (retCode s (opSize t) imm) h) = _
      rw [r1]; exact rfl
    · show JOut.of t _ (run e 0 (retCode s (opSize t) imm) h) = _
      rw [hp.2 (Bool.eq_false_iff.2 hn)]; rfl

/-- Nothing ends the block before the jump: each instruction before it lies on one page and does not end it. -/
theorem cut_layout (base : BitVec 32) (one : Bool) (l : List (Insn × Nat)) : ∀ pc, cut one pc l = false → (layout base one pc l).length = l.length := by
  induction l with
  | nil => intro pc _; rfl
  | cons x l ih =>
    obtain ⟨i, n⟩ := x
    intro pc h
    unfold cut at h
    rw [Bool.or_eq_false_iff, Bool.or_eq_false_iff] at h
    unfold layout
    rw [if_neg (by simp [h.1.1, h.1.2]), List.length_cons, ih _ h.2, List.length_cons]

theorem cut_check (base : BitVec 32) (one : Bool) (l : List (Insn × Nat)) : ∀ pc, cut one pc l = false → ∀ (i : Nat) (it : Item), (layout base one pc l)[i]? = some it →
    it.check = true := by
  induction l with
  | nil => intro pc _ i it hi; cases hi
  | cons x l ih =>
    obtain ⟨x, n⟩ := x
    intro pc h i it hi
    unfold cut at h
    rw [Bool.or_eq_false_iff, Bool.or_eq_false_iff] at h
    unfold layout at hi
    rw [if_neg (by simp [h.1.1, h.1.2])] at hi
    cases i with
    | zero => obtain rfl : _ = it := by simpa using hi
              rfl
    | succ i => exact ih _ h.2 i it (by simpa using hi)

theorem layout_le (base : BitVec 32) (one : Bool) (l : List (Insn × Nat)) : ∀ pc, (layout base one pc l).length ≤ l.length := by
  induction l with
  | nil => intro pc; exact Nat.le_refl _
  | cons x l ih =>
    obtain ⟨x, n⟩ := x
    intro pc
    unfold layout
    split
    · simp
    · have := ih (pc + BitVec.ofNat 32 n)
      simp only [List.length_cons]
      omega

/-- At the end of a block RCX is what it was and the lazy flags are clean. -/
theorem block_ends {es : Nat → Env} {ctx : BitVec 64} (hctx : ∀ n, (es n).ctx = ctx) (pend : Nat → BitVec 32) (l : List Item) :
    ∀ n eip (h : Host.St), (∀ k it, l[k]? = some it → Legal (es (n + k)) it.insn) → h.r .rcx = ctx → Clean h.g.fl →
      ∀ e h', runBlock es pend n l eip h = .ends e h' → h'.r .rcx = ctx ∧ Clean h'.g.fl := by
  induction l with
  | nil => intro n eip h _ hc hcl e h' hr; cases hr; exact ⟨hc, hcl⟩
  | cons it l ih =>
    intro n eip h hl hc hcl e h' hrun
    have hct := exec_ends it.insn (hl 0 it rfl) (by rw [hc, hctx]) hcl
    rw [Nat.add_zero] at hct
    rcases hct with ⟨h1, a1, a2, hr, a3, hcl'⟩ | ⟨g', a1, a2⟩
    · have hl' : ∀ k it', l[k]? = some it' → Legal (es (n + 1 + k)) it'.insn := by
        intro k it' hk
        have := hl (k + 1) it' (by simpa using hk)
        rwa [show n + (k + 1) = n + 1 + k by omega] at this
      have hsp := intCheck_spec (pend n) h1
      unfold runBlock at hrun
      rw [a1] at hrun
      dsimp only at hrun
      split at hrun
      · split at hrun
        · cases hrun
        · exact ih (n + 1) it.next _ hl' (by rw [hsp.2.2, a2, hctx]) (by rw [hsp.2.1]; exact hcl') e h' hrun
      · exact ih (n + 1) it.next h1 hl' (by rw [a2, hctx]) hcl' e h' hrun
    · unfold runBlock at hrun
      rw [a1] at hrun
      cases hrun

theorem of_jump {es : Nat → Env} {k len : Nat} {z : Bool} {j : Jump} (e : BitVec 32) (h : Host.St) {e2 : BitVec 32} {h2 : Host.St}
    (hx : execJump (es k) h ⟨e, len, z⟩ j = .next e2 h2) : JBOut.of es k false len z j (.ends e h) = .jumps e2 h2 := by
  show (match execJump (es k) h ⟨e, len, z⟩ j with | .next eip' h' => JBOut.jumps eip' h' | .fault g => .fault e g | .stuck => .stuck) = _
  rw [hx]
theorem of_fault {es : Nat → Env} {k len : Nat} {z : Bool} {j : Jump} (e : BitVec 32) (h : Host.St) {g : G}
    (hx : execJump (es k) h ⟨e, len, z⟩ j = .fault g) : JBOut.of es k false len z j (.ends e h) = .fault e g := by
  show (match execJump (es k) h ⟨e, len, z⟩ j with | .next eip' h' => JBOut.jumps eip' h' | .fault g => .fault e g | .stuck => .stuck) = _
  rw [hx]

/-- C100, a block that ends with a jump: its instructions take effect in order, then the jump, in the state they left and at the address after them, and EIP is
where it goes; or the block is left before that, as C99 says, with EIP at the next instruction; a fault of the jump leaves EIP at the jump and the state
as the instructions before it left it. -/
theorem C100_block_partial {es : Nat → Env} {ctx : BitVec 64} (hctx : ∀ n, (es n).ctx = ctx) (pend : Nat → BitVec 32) (base : BitVec 32) (one : Bool)
    (pc : BitVec 32) (l : List (Insn × Nat)) (len : Nat) (size32 : Bool) (j : Jump) (h : Host.St) (hl : ∀ k x, l[k]? = some x → Legal (es k) x.1)
    (hj : JLegal (es l.length) j) (hc : h.r .rcx = ctx) (hcl : Clean h.g.fl) :
    ∃ (k : Nat) (s : Nat → G), s 0 = h.g ∧ k ≤ l.length ∧
      (∀ i < k, ∃ x n, l[i]? = some (x, n) ∧ Runs (es i) (s i) x ∧ Gives (es i) (s i) (s (i + 1)) x ∧ (i + 1 < k → ¬ Wanted (pend i) (s (i + 1)))) ∧
      match runBasic es pend base one pc l len size32 j h with
      | .jumps e h' => cut one pc l = false ∧ k = l.length ∧ (∀ i < k, ¬ Wanted (pend i) (s (i + 1))) ∧ JRuns (es k) (s k) ⟨pc + BitVec.ofNat 32 (offset l k) - base, len, size32⟩ j ∧
          JGives (es k) (s k) ⟨pc + BitVec.ofNat 32 (offset l k) - base, len, size32⟩ h'.g e j ∧ h'.r .rcx = ctx
      | .ends e h' => cut one pc l = true ∧ k = (layout base one pc l).length ∧ e = pc + BitVec.ofNat 32 (offset l k) - base ∧ h'.g = s k
      | .fault e g => e = pc + BitVec.ofNat 32 (offset l k) - base ∧
          ((∃ x n, l[k]? = some (x, n) ∧ Faults (es k) (s k) g x) ∨
           (k = l.length ∧ ¬ JRuns (es k) (s k) ⟨e, len, size32⟩ j ∧ g = s k))
      | .int e h' => e = pc + BitVec.ofNat 32 (offset l k) - base ∧ h'.g = s k ∧ 0 < k ∧ Wanted (pend (k - 1)) h'.g
      | .stuck => False := by
  obtain ⟨k, s, e0, hk, hpath, hend⟩ := C99_addresses_partial hctx pend base one pc l h hl hc hcl
  have hkl : k ≤ l.length := Nat.le_trans hk (layout_le base one l pc)
  have hlay : ∀ k it, (layout base one pc l)[k]? = some it → Legal (es (0 + k)) it.insn := by
    intro k it hk
    obtain ⟨⟨n, hn⟩, _⟩ := C99_layout base one l pc k it hk
    rw [Nat.zero_add]
    exact hl k _ hn
  have hends := block_ends hctx pend _ 0 (pc - base) h hlay hc hcl
  refine ⟨k, s, e0, hkl, hpath, ?_⟩
  unfold runBasic
  generalize runBlock es pend 0 (layout base one pc l) (pc - base) h = out at hend hends ⊢
  cases out with
  | ends e h' =>
    obtain ⟨b1, b2, b3, b4⟩ := hend
    obtain ⟨c1, c2⟩ := hends e h' rfl
    cases hcut : cut one pc l with
    | true => exact ⟨rfl, b1, b2, b3⟩
    | false =>
      have hkn : k = l.length := b1.trans (cut_layout base one l pc hcut)
      have hJ := C100_jump j ⟨e, len, size32⟩ hj (by rw [c1, hctx]) c2
      rw [b3, ← hkn] at hJ
      rw [← hkn]
      by_cases hr : JRuns (es k) (s k) ⟨e, len, size32⟩ j
      · obtain ⟨eip, h2, d1, d2, d3⟩ := hJ.1 hr
        rw [of_jump e h' d1]
        refine ⟨rfl, rfl, fun i hi => ?_, by rw [← b2]; exact hr, by rw [← b2]; exact d3, by rw [d2, hctx]⟩
        have hi' : i < (layout base one pc l).length := by omega
        exact b4 i _ (List.getElem?_eq_getElem hi') (cut_check base one l pc hcut i _ (List.getElem?_eq_getElem hi'))
      · rw [of_fault e h' (hJ.2 hr)]
        exact ⟨b2, .inr ⟨rfl, hr, rfl⟩⟩
  | fault e g => exact ⟨hend.1, .inl hend.2⟩
  | int e h' => exact hend
  | stuck => exact hend

/-- Kind, EIP, ESP and ECX of the end. -/
def exJump : JBOut → Nat × BitVec 32 × BitVec 32 × BitVec 32
  | .jumps e h => (0, e, h.g.gpr 4, h.g.gpr 1)
  | .ends e h => (1, e, h.g.gpr 4, h.g.gpr 1)
  | .fault e g => (2, e, g.gpr 4, g.gpr 1)
  | .int e h => (3, e, h.g.gpr 4, h.g.gpr 1)
  | .stuck => (4, 0, 0, 0)
/-- The block of C99 with a jump after it. -/
def exWith (es : Nat → Env) (size32 : Bool) (len : Nat) (j : Jump) : JBOut := runBasic es (fun _ => 0#32) 0#32 false 0x1000#32 exBlock len size32 j exSt

example : (exSt.g.gpr 1, exSt.g.gpr 4) = (0#32, 0#32) := by decide +kernel
/- JNZ with a negative displacement is taken, JZ is not. -/
example : exJump (exWith (fun _ => exEnv) true 2 (.jcc .nz (BitVec.ofInt 64 (-8)))) = (0, 0x1000#32, 0xFFFFFFFC#32, 0#32) := by decide +kernel
example : exJump (exWith (fun _ => exEnv) true 2 (.jcc .z (BitVec.ofInt 64 (-8)))) = (0, 0x1008#32, 0xFFFFFFFC#32, 0#32) := by decide +kernel
/- A 16 bit jump stays below 2^16. -/
example : exJump (exWith (fun _ => exEnv) false 3 (.jmp (BitVec.ofInt 64 (-0x1234)))) = (0, 0xFDD5#32, 0xFFFFFFFC#32, 0#32) := by decide +kernel
/- LOOP, 16 and 32 bit counts. -/
example : exJump (exWith (fun _ => exEnv) true 2 (.loop .loop true 4#64)) = (0, 0x100C#32, 0xFFFFFFFC#32, 0xFFFFFFFF#32) := by decide +kernel
example : exJump (exWith (fun _ => exEnv) true 2 (.loop .loope false 4#64)) = (0, 0x1008#32, 0xFFFFFFFC#32, 0xFFFF#32) := by decide +kernel
example : exJump (exWith (fun _ => exEnv) true 2 (.jcxz true 4#64)) = (0, 0x100C#32, 0xFFFFFFFC#32, 0#32) := by decide +kernel
/- CALL pushes, RET pops what PUSH EAX pushed. -/
example : exJump (exWith (fun _ => exEnv) true 5 (.call ⟨true, false⟩ 0x100#64)) = (0, 0x110B#32, 0xFFFFFFF8#32, 0#32) := by decide +kernel
example : exJump (exWith (fun _ => exEnv) true 3 (.ret ⟨true, false⟩ (some 8#64))) = (0, 0x301#32, 8#32, 0#32) := by decide +kernel
example : exJump (exWith (fun _ => exEnv) true 2 (.callRm ⟨true, false⟩ (.reg ⟨0, false⟩))) = (0, 0x301#32, 0xFFFFFFF8#32, 0#32) := by decide +kernel
/- A fault of the CALL leaves EIP at it. -/
example : exJump (exWith (fun n => if n < 4 then exEnv else { exEnv with ok := fun _ _ w => !w }) true 5 (.call ⟨true, false⟩ 0x100#64)) =
    (2, 0x1006#32, 0xFFFFFFFC#32, 0#32) := by decide +kernel
example : JLegal exEnv (.callRm ⟨true, false⟩ (.mem ⟨true, .modrm ⟨some 3, none, none, false⟩, 3, false, true⟩)) :=
  ⟨fun h => (by cases h), fun h => (by cases h), ⟨fun h => (by cases h), fun i n h => (by cases h)⟩⟩

end Verif.Emit
