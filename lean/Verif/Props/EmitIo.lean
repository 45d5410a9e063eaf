import Verif.Lemmas.EmitIo
import Verif.Props.EmitStr
import Verif.Props.StringElem
/-
C105: the port instructions.
-/
namespace Verif.Emit
open Host Spec

theorem ofNat_low {z : Sz} (hz : z ≠ .q) (v : Nat) : (BitVec.ofNat z.bits v).toNat = v % 256 ^ z.bytes := by
  rw [BitVec.toNat_ofNat]
  cases z <;> first | rfl | exact absurd rfl hz

theorem valid_k {z : Sz} (hz : z ≠ .q) : z.bytes = 1 ∨ z.bytes = 2 ∨ z.bytes = 4 := by
  cases z <;> first | exact absurd rfl hz | decide

theorem acc_set {z : Sz} (hz : z ≠ .q) (g : G) (v : Nat) :
    ((wrG g z acc (BitVec.ofNat z.bits v)).gpr 0).toNat = (g.gpr 0).toNat / 256 ^ z.bytes * 256 ^ z.bytes + v % 256 ^ z.bytes := by
  have : BitVec.ofNat z.bits v = BitVec.ofNat z.bits (v % 256 ^ z.bytes) := by
    apply BitVec.eq_of_toNat_eq
    rw [ofNat_low hz, ofNat_low hz, Nat.mod_mod]
  rw [this, lods_acc hz]
  exact StringOps.setAcc_toNat _ (valid_k hz) _ _ (Nat.mod_lt _ (Nat.pow_pos (by decide)))

/-- C105, IN and OUT: the access is checked; it is refused with #GP or a page fault, or stopped by a breakpoint, with nothing done and no access to
the port, or exactly one access is made, of the port named, the size of the operand and the value in the accumulator. -/
theorem C105_port (e : Env) (d : Dev) (x : IoInsn) (hz : x.z ≠ .q) (h : Host.St) (t : List Ev) (hc : h.r .rcx = e.ctx) :
    ∃ c, Decides e d x.chk h.g.mem (portOf x h.g) x.z.bytes c ∧
      match c with
      | .gp => xrun e d 0 (ioCode x) h t = .stop .gp h.g t
      | .pf => xrun e d 0 (ioCode x) h t = .stop .pf h.g t
      | .allow =>
        if d.watch x.z (portOf x h.g) then xrun e d 0 (ioCode x) h t = .stop .db h.g t
        else ∃ h' t', xrun e d 0 (ioCode x) h t = .next 0 h' t' ∧ h'.r .rcx = e.ctx ∧ IoDone d x h.g h'.g t t' := by
  obtain ⟨c, hd, ha⟩ := ioPort_run e d x hz h t hc
  refine ⟨c, hd, ?_⟩
  cases c
  · exact xrun_append_stop _ ha
  · exact xrun_append_stop _ ha
  · obtain ⟨h1, r1, k1, x1⟩ := ha
    have hr : ∀ l, ioCode x = (match x.port with
      | some p => (if x.chk then ioCheck (some p) x.z else []) ++ [.h (.mov .d .rdx (.imm (p.setWidth 64)))]
      | none => ioDx x.chk x.z) ++ l → xrun e d 0 (ioCode x) h t = xrun e d 0 l h1 t := by
      intro l hl
      rw [hl]
      exact xrun_append _ r1
    dsimp only
    unfold IoDone
    cases hi : x.inp
    · have hcode := hr [.h (.ldG x.z .r8 acc), .stIo x.z] (by unfold ioCode; rw [hi]; rfl)
      obtain ⟨h2, r2, c2, g2, x2, v2⟩ : ∃ h2, run e 0 [I.ldG x.z .r8 acc] h1 = .next 0 h2 ∧ h2.r .rcx = e.ctx ∧ h2.g = h1.g ∧
          rd h2 .w .rdx = rd h1 .w .rdx ∧ rd h2 x.z .r8 = rdG h1.g x.z acc := by
        hexec' [k1.rcx]
        refine ⟨_, rfl, ?_⟩
        hexec' [k1.rcx]
        exact ⟨trivial, trivial, trivial, trivial⟩
      have hcode2 := hcode.trans (xrun_next (d := d) (t := t) r2 [.stIo x.z])
      obtain ⟨s1, s2⟩ := stIo_run e d x.z h2 t c2 _ (x2.trans x1)
      have g' : h2.g = h.g := g2.trans k1.g
      cases hw : d.watch x.z (portOf x h.g)
      · rw [if_neg (by decide)]
        obtain ⟨h3, r3, c3, g3, _⟩ := s2 hw
        refine ⟨h3, _, hcode2.trans (r3 []), c3, ?_⟩
        rw [if_neg (by decide), v2, k1.g, acc_mod hz]
        exact ⟨rfl, g3.trans g'⟩
      · rw [if_pos rfl]
        exact hcode2.trans ((s1 hw _).trans (by rw [g']))
    · have hcode := hr [.ldIo x.z, .h (.stG x.z acc .rax)] (by unfold ioCode; rw [hi]; rfl)
      obtain ⟨s1, s2⟩ := ldIo_run e d x.z h1 t k1.rcx _ x1
      cases hw : d.watch x.z (portOf x h.g)
      · rw [if_neg (by decide)]
        obtain ⟨h3, r3, c3, g3, v3⟩ := s2 hw
        obtain ⟨h4, r4, c4, g4⟩ : ∃ h4, run e 0 [I.stG x.z acc .rax] h3 = .next 0 h4 ∧ h4.r .rcx = e.ctx ∧
            h4.g = wrG h3.g x.z acc (BitVec.ofNat x.z.bits (d.inp t x.z (portOf x h.g))) := by
          hexec' [c3, v3]
          refine ⟨_, rfl, ?_⟩
          hexec' [c3]
          exact ⟨trivial, trivial⟩
        refine ⟨h4, _, hcode.trans ((r3 _).trans ((xrun_next (d := d) r4 []).trans rfl)), c4, ?_⟩
        rw [if_pos rfl, g4, g3, k1.g, ofNat_low hz]
        refine ⟨rfl, acc_set hz _ _, fun i hi => ?_, rfl, rfl⟩
        exact if_neg hi
      · rw [if_pos rfl]
        exact hcode.trans ((s1 hw _).trans (by rw [k1.g]))

/-- C105: code for which no check is needed (in protected mode, with IOPL not below CPL) is never refused an access. -/
theorem C105_privileged (e : Env) (d : Dev) (x : IoInsn) (hz : x.z ≠ .q) (h : Host.St) (t : List Ev) (hc : h.r .rcx = e.ctx) (cpl iopl : Nat)
    (hk : x.chk = ioChecked cpl iopl false) (hp : cpl ≤ iopl) (hw : ∀ z p, d.watch z p = false) :
    ∃ h' t', xrun e d 0 (ioCode x) h t = .next 0 h' t' ∧ IoDone d x h.g h'.g t t' := by
  obtain ⟨c, hd, ha⟩ := C105_port e d x hz h t hc
  have hk' : x.chk = false := by
    rw [hk]
    unfold ioChecked
    rw [Bool.or_false, decide_eq_false]
    omega
  unfold Decides at hd
  rw [hk', if_neg (by decide)] at hd
  rw [hd] at ha
  dsimp only at ha
  rw [hw, if_neg (by decide)] at ha
  obtain ⟨h', t', a, _, b⟩ := ha
  exact ⟨h', t', a, b⟩

/-- C105: otherwise, and if the calls keep R10 and R11, the bitmap decides, as C62 says. -/
theorem C105_bitmap_partial (e : Env) (hk : KeepsR e) (d : Dev) (x : IoInsn) (hz : x.z ≠ .q) (h : Host.St) (t : List Ev) (hc : h.r .rcx = e.ctx)
    (cpl iopl : Nat) (vm : Bool) (hchk : x.chk = ioChecked cpl iopl vm) (hp : iopl < cpl ∨ vm = true) (hw : ∀ z p, d.watch z p = false) :
    match IoBitmap.checkPreserved e.ok h.g.mem d.base d.limit (portOf x h.g) x.z.bytes with
    | .gp => xrun e d 0 (ioCode x) h t = .stop .gp h.g t
    | .pf => xrun e d 0 (ioCode x) h t = .stop .pf h.g t
    | .allow => ∃ h' t', xrun e d 0 (ioCode x) h t = .next 0 h' t' ∧ IoDone d x h.g h'.g t t' := by
  obtain ⟨c, hd, ha⟩ := C105_port e d x hz h t hc
  have hk' : x.chk = true := by
    rw [hchk]
    unfold ioChecked
    rcases hp with hp | hp
    · rw [decide_eq_true hp, Bool.true_or]
    · rw [hp, Bool.or_true]
  unfold Decides at hd
  rw [hk', if_pos rfl] at hd
  obtain ⟨r10, r11, hr, hd⟩ := hd
  obtain ⟨ha1, ha2⟩ := hr hk
  unfold IoBitmap.checkPreserved
  rw [ha1, ha2] at hd
  rw [← hd]
  rw [hw] at ha
  cases c
  · exact ha
  · exact ha
  · dsimp only at ha
    rw [if_neg (by decide)] at ha
    obtain ⟨h', t', a, _, b⟩ := ha
    exact ⟨h', t', a, b⟩

/-- What the emitter assumes about the bases is right, and the operand is a byte, word or doubleword. -/
def IoStrOk (e : Env) (x : IoStr) : Prop := x.z ≠ .q ∧ (x.srcFlat = true → e.seg x.seg = 0#32) ∧ (x.dstFlat = true → e.seg 0 = 0#32)

/-- The guest state after the element's access. -/
def ioMid (e : Env) (d : Dev) (x : IoStr) (g : G) (t : List Ev) : G :=
  if x.inp then { g with mem := Guest.store g.mem (elemAt e x g) x.z.bytes (inNum d x g t) } else g

theorem stride_eq (x : IoStr) (g : G) (r : BitVec 32) (hz : x.z ≠ .q) :
    StringOps.Spec.Moves x.a32 (ioStride x g) r (StringOps.stepIdx (senc x.like) (g.fl.eflags.getLsbD 10) r) :=
  StringOps.moves_step (senc x.like) (valid_k hz) ⟨g.mem, 0#32, 0#32, 0#32, 0#32, g.fl.eflags.getLsbD 10, 0#32, 0#32, g.fl⟩ r

/-- The element as specified. -/
theorem ioElem_spec (e : Env) (d : Dev) (x : IoStr) (hz : x.z ≠ .q) (g : G) (t : List Ev) (h1 : Decides e d x.chk g.mem (dx g) x.z.bytes .allow)
    (h2 : d.watch x.z (dx g) = false) (h3 : memMay e x g = true) :
    IoElem e d x g (slide x.like (g.fl.eflags.getLsbD 10) (ioMid e d x g t)) t := by
  refine ⟨h1, h2, h3, ?_⟩
  unfold slide ioMid
  cases hi : x.inp
  · have hl : x.like.i = .lods := by unfold IoStr.like; rw [hi]; rfl
    rw [hl, if_neg (by decide)]
    refine ⟨rfl, ?_⟩
    rw [if_neg (by decide)]
    exact ⟨rfl, stride_eq x g (g.gpr 6) hz, fun _ h => if_neg h⟩
  · have hl : x.like.i = .stos := by unfold IoStr.like; rw [hi]; rfl
    rw [hl, if_pos rfl]
    refine ⟨rfl, ?_⟩
    rw [if_pos rfl]
    exact ⟨fun _ => rfl, stride_eq x g (g.gpr 7) hz, fun _ h => if_neg h⟩

theorem counted_spec (x : IoStr) (g : G) : IoCounted x.a32 g (dec x.a32 g) :=
  ⟨StringOps.moves_dec ⟨.stos, 1, x.a32⟩ ⟨g.mem, 0#32, 0#32, g.gpr 1, 0#32, false, 0#32, 0#32, g.fl⟩, fun _ h => if_neg h, rfl, rfl⟩

theorem ioMid_mid {e : Env} {d : Dev} {x : IoStr} {g : G} {t : List Ev} : (ioMid e d x g t).gpr = g.gpr ∧ (ioMid e d x g t).fl = g.fl := by
  unfold ioMid
  split <;> exact ⟨rfl, rfl⟩

/-- What one pass over the code does. -/
def TurnRuns (e : Env) (d : Dev) (x : IoStr) (h : Host.St) (t : List Ev) : Prop :=
  (∃ h', xrun e d 0 (ioTurn x) h t = .next (if strGoes x.like (moved x.like (ioMid e d x h.g t)) then 1 else 0) h' (t ++ [access e d x h.g t]) ∧
    h'.r .rcx = e.ctx ∧ h'.g = moved x.like (ioMid e d x h.g t) ∧
    Decides e d x.chk h.g.mem (dx h.g) x.z.bytes .allow ∧ d.watch x.z (dx h.g) = false ∧ memMay e x h.g = true) ∨
  (∃ w, xrun e d 0 (ioTurn x) h t = .stop w h.g t ∧ Refused e d x h.g w) ∨
  (x.inp = true ∧ memMay e x h.g = false ∧ xrun e d 0 (ioTurn x) h t = .stop .pf h.g (t ++ [access e d x h.g t]))

theorem ioTurn_run (e : Env) (d : Dev) (x : IoStr) (hx : IoStrOk e x) (h : Host.St) (t : List Ev) (hc : h.r .rcx = e.ctx) : TurnRuns e d x h t := by
  obtain ⟨hz, hsf, hdf⟩ := hx
  unfold TurnRuns ioTurn
  cases hi : x.inp
  · rw [if_neg (by decide)]
    have hea : elemAt e x h.g = StringOps.rdIdx x.a32 (h.g.gpr 6) + e.seg x.seg := by unfold elemAt; rw [hi, StringOps.at_eq]; rfl
    have hmay : memMay e x h.g = e.ok (StringOps.rdIdx x.a32 (h.g.gpr 6) + e.seg x.seg) x.z.bytes false := by unfold memMay; rw [hea, hi]
    have hon : outNum e x h.g = Guest.load h.g.mem (StringOps.rdIdx x.a32 (h.g.gpr 6) + e.seg x.seg) x.z.bytes := by
      unfold outNum; rw [StringOps.num_load, ← StringOps.at_eq]
    unfold outsElem
    obtain ⟨l1, l2⟩ := outsLoad_run e x h hc hsf
    rw [← hmay] at l1 l2
    rw [List.append_assoc, List.append_assoc]
    cases hm : memMay e x h.g
    · exact .inr (.inl ⟨.pf, xrun_fault (l2 hm) _, .inr hm⟩)
    · obtain ⟨h1, r1, c1, g1, v1, b1⟩ := l1 hm
      obtain ⟨c, hd, ha⟩ := ioDx_run e d x.chk x.z hz h1 t c1
      rw [g1] at hd ha
      have f1 := xrun_next (d := d) (t := t) r1 ((ioDx x.chk x.z ++ [.h (.ldL x.z .r8 1), .stIo x.z]) ++ (ioMove x.like).map .h)
      rw [List.append_assoc] at f1
      cases c
      · exact .inr (.inl ⟨.gp, f1.trans ((xrun_append_stop _ ha).trans (by rw [g1])), hd⟩)
      · exact .inr (.inl ⟨.pf, f1.trans ((xrun_append_stop _ ha).trans (by rw [g1])), .inl hd⟩)
      · obtain ⟨h2, r2, k2, x2⟩ := ha
        obtain ⟨h3, r3, c3, g3, x3, v3, b3⟩ : ∃ h3, run e 0 [I.ldL x.z .r8 1] h2 = .next 0 h3 ∧ h3.r .rcx = e.ctx ∧ h3.g = h2.g ∧
            rd h3 .w .rdx = rd h2 .w .rdx ∧ rd h3 x.z .r8 = rdL h2 x.z 1 ∧ rd h3 .d .rbx = rd h2 .d .rbx := by
          hexec' []
          refine ⟨_, rfl, ?_⟩
          hexec' [k2.rcx]
          exact ⟨trivial, trivial, trivial, trivial, trivial⟩
        have f2 := f1.trans ((xrun_append _ r2).trans (xrun_next (d := d) (t := t) r3 (.stIo x.z :: (ioMove x.like).map .h)))
        obtain ⟨s1, s2⟩ := stIo_run e d x.z h3 t c3 _ (x3.trans x2)
        have g3' : h3.g = h.g := g3.trans (k2.g.trans g1)
        cases hw : d.watch x.z (dx h.g)
        · obtain ⟨h4, r4, c4, g4, b4⟩ := s2 hw
          have hv : (rd h3 x.z .r8).toNat = outNum e x h.g := by
            have : rdL h2 x.z 1 = rdL h1 x.z 1 := by unfold rdL; rw [k2.loc]
            rw [v3, this, v1, hon, ofNat_low hz]
            exact Nat.mod_eq_of_lt (Guest.load_lt _ _ _)
          have hmid : ioMid e d x h.g t = h.g := by unfold ioMid; rw [hi]; rfl
          have g4' : h4.g = h.g := g4.trans g3'
          have hl : x.like.i = .lods := by unfold IoStr.like; rw [hi]; rfl
          have hheld : Held x.like.i x.like.a32 h4.g h4 := by
            intro p hp
            rw [hl] at hp
            cases hp with
            | head =>
              show rd h4 .d .rbx = StringOps.rdIdx x.a32 (h4.g.gpr 6)
              rw [b4, b3, k2.rbx, b1, g4']
            | tail _ hp => cases hp
          obtain ⟨h5, r5, c5, g5⟩ := ioMove_run e x.like (by rw [hl]; rfl) h4 c4 hheld
          have hacc : access e d x h.g t = .wr x.z (dx h.g) (outNum e x h.g) := by unfold access; rw [hi]; rfl
          rw [hv] at r4
          have f3 := f2.trans ((r4 _).trans ((congrArg (fun l => xrun e d 0 l h4 _) (List.append_nil _).symm).trans (xrun_next (d := d) r5 [])))
          refine .inl ⟨h5, ?_, c5, ?_, hd, rfl, rfl⟩
          · rw [hacc, hmid]
            refine f3.trans ?_
            rw [xrun, g4']
          · rw [hmid, ← g4']; exact g5
        · exact .inr (.inl ⟨.db, f2.trans ((s1 hw _).trans (by rw [g3'])), hd, hw⟩)
  · rw [if_pos rfl]
    have hea : elemAt e x h.g = StringOps.rdIdx x.a32 (h.g.gpr 7) + e.seg 0 := by unfold elemAt; rw [hi, StringOps.at_eq]; rfl
    have hmay : memMay e x h.g = e.ok (StringOps.rdIdx x.a32 (h.g.gpr 7) + e.seg 0) x.z.bytes true := by unfold memMay; rw [hea, hi]
    have hacc : access e d x h.g t = .rd x.z (dx h.g) (inNum d x h.g t) := by unfold access; rw [hi]; rfl
    unfold insElem
    obtain ⟨c, hd, ha⟩ := ioDx_run e d x.chk x.z hz h t hc
    rw [List.append_assoc]
    cases c
    · exact .inr (.inl ⟨.gp, xrun_append_stop _ ha, hd⟩)
    · exact .inr (.inl ⟨.pf, xrun_append_stop _ ha, .inl hd⟩)
    · obtain ⟨h2, r2, k2, x2⟩ := ha
      have f2 := xrun_append (.ldIo x.z :: ((insStore x).map .h ++ (ioMove x.like).map .h)) r2
      obtain ⟨s1, s2⟩ := ldIo_run e d x.z h2 t k2.rcx _ x2
      cases hw : d.watch x.z (dx h.g)
      · obtain ⟨h3, r3, c3, g3, v3⟩ := s2 hw
        have g3' : h3.g = h.g := g3.trans k2.g
        obtain ⟨m1, m2⟩ := insStore_run e x h3 c3 hdf _ v3
        rw [g3', ← hmay] at m1 m2
        have hn : (BitVec.ofNat x.z.bits (d.inp t x.z (dx h.g))).toNat = inNum d x h.g t := ofNat_low hz _
        rw [hn] at r3 m1
        have f3 := f2.trans (r3 _)
        cases hm : memMay e x h.g
        · refine .inr (.inr ⟨rfl, rfl, f3.trans ((xrun_fault (m2 hm) _).trans ?_)⟩)
          rw [hacc]
        · obtain ⟨h4, r4, c4, g4, b4⟩ := m1 hm
          have hmid : ioMid e d x h.g t = h4.g := by unfold ioMid; rw [hi, g4, hea]; rfl
          have hl : x.like.i = .stos := by unfold IoStr.like; rw [hi]; rfl
          have hheld : Held x.like.i x.like.a32 h4.g h4 := by
            intro p hp
            rw [hl] at hp
            cases hp with
            | head =>
              show rd h4 .d .rbx = StringOps.rdIdx x.a32 (h4.g.gpr 7)
              rw [b4, g4]
            | tail _ hp => cases hp
          obtain ⟨h5, r5, c5, g5⟩ := ioMove_run e x.like (by rw [hl]; rfl) h4 c4 hheld
          have f4 := f3.trans ((xrun_next (d := d) r4 _).trans ((congrArg (fun l => xrun e d 0 l h4 _) (List.append_nil _).symm).trans (xrun_next (d := d) r5 [])))
          refine .inl ⟨h5, ?_, c5, ?_, hd, rfl, rfl⟩
          · rw [hacc, hmid]
            refine f4.trans ?_
            rw [xrun]
          · rw [hmid]; exact g5
      · exact .inr (.inl ⟨.db, f2.trans ((s1 hw _).trans (by rw [k2.g])), hd, hw⟩)

theorem counted_count {a32 : Bool} {g g' : G} (h : IoCounted a32 g g') (hp : 0 < ioCount a32 g) : ioCount a32 g' = ioCount a32 g - 1 := by
  have h1 := h.1.1
  unfold ioCount at *
  have : StringOps.Spec.size a32 = 4294967296 ∨ StringOps.Spec.size a32 = 65536 := by cases a32; exact .inr rfl; exact .inl rfl
  rcases this with hs | hs <;> rw [hs] at h1 hp ⊢ <;> omega

theorem elem_count {e : Env} {d : Dev} {x : IoStr} {g g' : G} {t : List Ev} (h : IoElem e d x g g' t) : g'.gpr 1 = g.gpr 1 := by
  obtain ⟨_, _, _, _, h⟩ := h
  split at h
  · exact h.2.2 1 (by decide)
  · exact h.2.2 1 (by decide)

/-- The three ways a repetition ends, `k` being the number of repetitions asked for. -/
def RepEnds (e : Env) (d : Dev) (x : IoStr) (k : Nat) (g : G) (t : List Ev) (o : XOut) : Prop :=
  (∃ h' t', o = .next 0 h' t' ∧ h'.r .rcx = e.ctx ∧ IoReps e d x k g t h'.g t') ∨
  (∃ w g' t', o = .stop w g' t' ∧ Refused e d x g' w ∧ ∃ m, m < k ∧ ioCount x.a32 g' = k - m ∧ IoReps e d x m g t g' t') ∨
  (x.inp = true ∧ ∃ g' t1, o = .stop .pf g' (t1 ++ [access e d x g' t1]) ∧ memMay e x g' = false ∧
    ∃ m, m < k ∧ ioCount x.a32 g' = k - m ∧ IoReps e d x m g t g' t1)

theorem RepEnds.more {e : Env} {d : Dev} {x : IoStr} {k : Nat} {g g1 g2 : G} {t : List Ev} {o : XOut} (h1 : IoElem e d x g g1 t)
    (h2 : IoCounted x.a32 g1 g2) (h : RepEnds e d x k g2 (t ++ [access e d x g t]) o) : RepEnds e d x (k + 1) g t o := by
  rcases h with ⟨h', t', a, b, c⟩ | ⟨w, g', t', a, b, m, hm, hk, c⟩ | ⟨hi, g', t1, a, b, m, hm, hk, c⟩
  · exact .inl ⟨h', t', a, b, .more h1 h2 c⟩
  · exact .inr (.inl ⟨w, g', t', a, b, m + 1, by omega, by omega, .more h1 h2 c⟩)
  · exact .inr (.inr ⟨hi, g', t1, a, b, m + 1, by omega, by omega, .more h1 h2 c⟩)

theorem goes_count (x : IoStr) (hr : x.rep = true) (g : G) : strGoes x.like g = !decide (ioCount x.a32 g = 0) := by
  have hl : x.like.rep = some .rep := by unfold IoStr.like; rw [hr]; rfl
  unfold strGoes
  rw [hl]
  unfold more
  dsimp only
  rw [Bool.and_true]
  congr 1
  have := StringOps.rd_val x.a32 (g.gpr 1)
  rw [Bool.eq_iff_iff, beq_iff_eq, decide_eq_true_eq]
  unfold ioCount
  rw [← this]
  exact ⟨fun h => by rw [show x.like.a32 = x.a32 from rfl] at h; rw [h]; rfl, fun h => BitVec.eq_of_toNat_eq h⟩

theorem xagain_run (e : Env) (d : Dev) (x : IoStr) (hx : IoStrOk e x) (hr : x.rep = true) : ∀ (n k : Nat) (h : Host.St) (t : List Ev), h.r .rcx = e.ctx →
    ioCount x.a32 h.g = k + 1 → k < n → RepEnds e d x (k + 1) h.g t (xagain e d (ioTurn x) n h t) := by
  intro n
  induction n with
  | zero => intro k h t _ _ hk; exact absurd hk (Nat.not_lt_zero _)
  | succ n ih =>
    intro k h t hc hk hn
    rw [xagain]
    rcases ioTurn_run e d x hx h t hc with ⟨h1, r1, c1, g1, d1, w1, m1⟩ | ⟨w, r1, f1⟩ | ⟨hi, m1, r1⟩
    · have hel := ioElem_spec e d x hx.1 h.g t d1 w1 m1
      have hmv : moved x.like (ioMid e d x h.g t) = dec x.a32 (slide x.like (h.g.fl.eflags.getLsbD 10) (ioMid e d x h.g t)) := by
        have hl : x.like.rep = some .rep := by unfold IoStr.like; rw [hr]; rfl
        unfold moved
        rw [hl, ioMid_mid.2]
        rfl
      have hco := counted_spec x (slide x.like (h.g.fl.eflags.getLsbD 10) (ioMid e d x h.g t))
      rw [← hmv, ← g1] at hco
      have hcnt : ioCount x.a32 h1.g = k := by
        have e1 : ioCount x.a32 (slide x.like (h.g.fl.eflags.getLsbD 10) (ioMid e d x h.g t)) = ioCount x.a32 h.g := by
          unfold ioCount; rw [elem_count hel]
        rw [counted_count hco (by omega), e1]
        omega
      rw [r1]
      rw [← g1, goes_count x hr, hcnt]
      refine RepEnds.more hel hco ?_
      by_cases hk0 : k = 0
      · subst hk0
        exact .inl ⟨h1, _, rfl, c1, .zero _ _⟩
      · rw [decide_eq_false hk0, Bool.not_false, if_pos rfl]
        obtain ⟨k, rfl⟩ := Nat.exists_eq_succ_of_ne_zero hk0
        exact ih k h1 _ c1 hcnt (by omega)
    · rw [r1]
      exact .inr (.inl ⟨w, h.g, t, rfl, f1, 0, by omega, by omega, .zero _ _⟩)
    · rw [r1]
      exact .inr (.inr ⟨hi, h.g, t, rfl, m1, 0, by omega, by omega, .zero _ _⟩)

theorem ioStart_run (e : Env) (x : IoStr) (h : Host.St) (hc : h.r .rcx = e.ctx) (hr : x.rep = true) :
    ∃ h', run e 0 (repStart x.like) h = .next (if ioCount x.a32 h.g = 0 then 1 else 0) h' ∧ h'.r .rcx = e.ctx ∧ h'.g = h.g :=
  repStart_run e x.like h hc .rep (by unfold IoStr.like; rw [hr]; rfl)

/-- C105, INS and OUTS: the instruction completes, one access to the port for each repetition; or it stops at an element with nothing of it done, the
registers telling where; or, INS only, the port was read for an element that could not be stored. -/
theorem C105_string_partial (e : Env) (d : Dev) (x : IoStr) (hx : IoStrOk e x) (n : Nat) (h : Host.St) (t : List Ev) (hc : h.r .rcx = e.ctx)
    (hn : ioCount x.a32 h.g ≤ n) (hn1 : 0 < n) :
    (∃ h' t', ioStrExec e d x n h t = .next 0 h' t' ∧ h'.r .rcx = e.ctx ∧ IoStrDone e d x h.g h'.g t t') ∨
    (∃ w g' t', ioStrExec e d x n h t = .stop w g' t' ∧ (IoStrStops e d x h.g g' t t' w ∨ w = .pf ∧ ReadLost e d x h.g g' t t')) := by
  unfold ioStrExec IoStrDone ReadLost IoStrStops
  cases hr : x.rep
  · have hl : repStart x.like = [] := by unfold repStart IoStr.like; rw [hr]; rfl
    rw [hl, run]
    obtain ⟨n, rfl⟩ := Nat.exists_eq_succ_of_ne_zero (Nat.ne_of_gt hn1)
    dsimp only
    rw [xagain]
    rcases ioTurn_run e d x hx h t hc with ⟨h1, r1, c1, g1, d1, w1, m1⟩ | ⟨w, r1, f1⟩ | ⟨hi, m1, r1⟩
    · have hel := ioElem_spec e d x hx.1 h.g t d1 w1 m1
      have hlr : x.like.rep = none := by unfold IoStr.like; rw [hr]; rfl
      have hmv : moved x.like (ioMid e d x h.g t) = slide x.like (h.g.fl.eflags.getLsbD 10) (ioMid e d x h.g t) := by
        unfold moved
        rw [hlr, ioMid_mid.2]
        rfl
      have hgo : ∀ g, strGoes x.like g = false := fun g => by unfold strGoes; rw [hlr]
      rw [r1, hgo, if_neg (by decide)]
      refine .inl ⟨h1, _, rfl, c1, ?_⟩
      rw [if_neg (by decide), g1, hmv]
      exact ⟨hel, rfl⟩
    · rw [r1]
      exact .inr ⟨w, h.g, t, rfl, .inl ⟨f1, by rw [if_neg (by decide)]; exact ⟨rfl, rfl⟩⟩⟩
    · rw [r1]
      exact .inr ⟨.pf, h.g, _, rfl, .inr ⟨rfl, hi, m1, t, rfl, .inr m1, by rw [if_neg (by decide)]; exact ⟨rfl, rfl⟩⟩⟩
  · obtain ⟨h1, r1, c1, g1⟩ := ioStart_run e x h hc hr
    rw [r1]
    by_cases h0 : ioCount x.a32 h.g = 0
    · rw [if_pos h0]
      refine .inl ⟨h1, t, rfl, c1, ?_⟩
      rw [if_pos rfl, h0, g1]
      exact .zero _ _
    · rw [if_neg h0]
      obtain ⟨k, hk⟩ := Nat.exists_eq_succ_of_ne_zero h0
      have := xagain_run e d x hx hr n k h1 t c1 (by rw [g1]; exact hk) (by omega)
      rw [g1, show k + 1 = ioCount x.a32 h.g from hk.symm] at this
      dsimp only
      rcases this with ⟨h', t', a, b, c⟩ | ⟨w, g', t', a, b, m, hm, hk, c⟩ | ⟨hi, g', t1, a, b, m, hm, hk, c⟩
      · exact .inl ⟨h', t', a, b, by rw [if_pos rfl]; exact c⟩
      · exact .inr ⟨w, g', t', a, .inl ⟨b, by rw [if_pos rfl]; exact ⟨m, hm, hk, c⟩⟩⟩
      · exact .inr ⟨.pf, g', _, a, .inr ⟨rfl, hi, b, t1, rfl, .inr b, by rw [if_pos rfl]; exact ⟨m, hm, hk, c⟩⟩⟩

/-- C105: OUTS completes or stops with nothing of the element done. -/
theorem C105_outs (e : Env) (d : Dev) (x : IoStr) (hx : IoStrOk e x) (ho : x.inp = false) (n : Nat) (h : Host.St) (t : List Ev) (hc : h.r .rcx = e.ctx)
    (hn : ioCount x.a32 h.g ≤ n) (hn1 : 0 < n) :
    (∃ h' t', ioStrExec e d x n h t = .next 0 h' t' ∧ h'.r .rcx = e.ctx ∧ IoStrDone e d x h.g h'.g t t') ∨
    (∃ w g' t', ioStrExec e d x n h t = .stop w g' t' ∧ IoStrStops e d x h.g g' t t' w) := by
  rcases C105_string_partial e d x hx n h t hc hn hn1 with h | ⟨w, g', t', a, b | ⟨_, b, _⟩⟩
  · exact .inl h
  · exact .inr ⟨w, g', t', a, b⟩
  · rw [ho] at b; cases b

/-- Accesses allowed before are allowed still. -/
def Wider (e : Env) (ok : Guest.Ok) : Prop := ∀ a k w, e.ok a k w = true → ok a k w = true

theorem decides_wider {e : Env} {ok : Guest.Ok} (hw : Wider e ok) {d : Dev} {chk : Bool} {m : Guest.Mem} {p : BitVec 16} {k : Nat}
    (h : Decides e d chk m p k .allow) : Decides { e with ok := ok } d chk m p k .allow := by
  unfold Decides at *
  cases chk
  · exact h
  · rw [if_pos rfl] at *
    obtain ⟨r10, r11, hk, hc⟩ := h
    refine ⟨r10, r11, hk, ?_⟩
    unfold IoBitmap.check at *
    split at hc
    · cases hc
    · rename_i h103
      rw [if_neg h103]
      split at hc
      · rename_i h1
        rw [if_pos (hw _ _ _ h1)]
        dsimp only at hc ⊢
        split at hc
        · cases hc
        · rename_i h2
          rw [if_neg h2]
          split at hc
          · rename_i h3
            rw [if_pos (hw _ _ _ h3)]
            exact hc
          · cases hc
      · cases hc

theorem elem_wider {e : Env} {ok : Guest.Ok} (hw : Wider e ok) {d : Dev} {x : IoStr} {g g' : G} {t : List Ev} (h : IoElem e d x g g' t) :
    IoElem { e with ok := ok } d x g g' t :=
  ⟨decides_wider hw h.1, h.2.1, hw _ _ _ h.2.2.1, h.2.2.2⟩

theorem reps_append {e : Env} {ok : Guest.Ok} (hw : Wider e ok) {d : Dev} {x : IoStr} {n m : Nat} {g g1 g2 : G} {t t1 t2 : List Ev}
    (h1 : IoReps e d x n g t g1 t1) (h2 : IoReps { e with ok := ok } d x m g1 t1 g2 t2) : IoReps { e with ok := ok } d x (n + m) g t g2 t2 := by
  induction h1 with
  | zero => rw [Nat.zero_add]; exact h2
  | more a b _ ih => rw [Nat.add_right_comm]; exact .more (elem_wider hw a) b (ih h2)

theorem stops_then {e : Env} {ok : Guest.Ok} (hw : Wider e ok) {d : Dev} {x : IoStr} {g g1 g2 : G} {t t1 t2 : List Ev} {w : Why}
    (h1 : IoStrStops e d x g g1 t t1 w) (h2 : IoStrDone { e with ok := ok } d x g1 g2 t1 t2) : IoStrDone { e with ok := ok } d x g g2 t t2 := by
  obtain ⟨_, h1⟩ := h1
  unfold IoStrDone at *
  cases hr : x.rep
  · rw [hr, if_neg (by decide)] at h1 h2
    rw [if_neg (by decide), ← h1.1, ← h1.2]
    exact h2
  · rw [hr, if_pos rfl] at h1 h2
    rw [if_pos rfl]
    obtain ⟨n, hn, hc, h1⟩ := h1
    have := reps_append hw h1 h2
    rw [hc, Nat.add_sub_cancel' (Nat.le_of_lt hn)] at this
    exact this

/-- C105: an OUTS that stopped is resumed: executed again when more accesses are allowed, from the registers and memory it left, it completes with what
it would have done at once; every element is written to the port once. -/
theorem C105_outs_restart (e : Env) (ok : Guest.Ok) (hw : Wider e ok) (d : Dev) (x : IoStr) (hx : IoStrOk e x) (ho : x.inp = false) (n : Nat)
    (h h2 h3 : Host.St) (t t1 t2 : List Ev) (g1 : G) (w : Why) (hc : h.r .rcx = e.ctx) (hn : 2 ^ 32 ≤ n)
    (h1 : ioStrExec e d x n h t = .stop w g1 t1) (hg : h2.g = g1) (hc2 : h2.r .rcx = e.ctx)
    (hr : ioStrExec { e with ok := ok } d x n h2 t1 = .next 0 h3 t2) : IoStrDone { e with ok := ok } d x h.g h3.g t t2 := by
  have hlt : ∀ g : G, ioCount x.a32 g ≤ n := fun g => by
    have := Nat.mod_le (g.gpr 1).toNat (StringOps.Spec.size x.a32)
    have := (g.gpr 1).isLt
    unfold ioCount
    omega
  have s1 : IoStrStops e d x h.g g1 t t1 w := by
    rcases C105_outs e d x hx ho n h t hc (hlt _) (by omega) with ⟨_, _, a, _⟩ | ⟨w', g', t', a, b⟩
    · rw [h1] at a; cases a
    · rw [h1] at a; cases a; exact b
  have s2 : IoStrDone { e with ok := ok } d x g1 h3.g t1 t2 := by
    rcases C105_outs { e with ok := ok } d x hx ho n h2 t1 hc2 (hlt _) (by omega) with ⟨_, _, a, _, b⟩ | ⟨w', g', t', a, b⟩
    · rw [hr] at a; cases a; rw [hg] at b; exact b
    · rw [hr] at a; cases a
  exact stops_then hw s1 s2

/-- Example ports: a queue of bytes from 0x41 on; TSS at 0x100. -/
def exDev : Dev := ⟨0x100#32, 0x2000#32, fun t _ _ => 0x41 + t.length, fun _ p => p == 0x99#16⟩
/-- Example environment whose calls keep the registers. -/
def exKeep : Env := { exEnv with hv := fun h r => h.r r }
/-- Example state: EAX, ECX, EDX, ESI, EDI; the bitmap's offset is 0x68, port 0x21 is denied (in the bitmap where the code looks for it). -/
def exIo (a c dx s di : BitVec 32) : Host.St :=
  { exSt with g := { gpr := fun i => if i = 0 then a else if i = 1 then c else if i = 2 then dx else if i = 6 then s else if i = 7 then di else 0x55#32
                     fl := ⟨2#32, 0x100#32, 0#32⟩
                     mem := fun b => if b = 0x166#32 then 0x68#8 else if b = 0x1D3#32 then 2#8 else if b.toNat < 0x1000 then 0#8 else b.setWidth 8 } }
/-- What is left: how it ended, the accesses, EAX, ECX, ESI, EDI and a byte. -/
def exIoSeen (o : XOut) (b : BitVec 32) : Option (Option Why × List Ev × List Nat) :=
  let f (g : G) := [(g.gpr 0).toNat, (g.gpr 1).toNat, (g.gpr 6).toNat, (g.gpr 7).toNat, (g.mem b).toNat]
  match o with
  | .next 0 h t => some (none, t, f h.g)
  | .stop w g t => some (some w, t, f g)
  | _ => none

example : KeepsR exKeep := fun _ => ⟨rfl, rfl⟩
example (a b : Bool) : IoStrOk exEnv ⟨a, .b, true, 3, true, true, b, true⟩ := ⟨(fun h => by cases h), fun _ => rfl, fun _ => rfl⟩
-- IN AL, 20h and IN AX, DX without a check
example : exIoSeen (xrun exEnv exDev 0 (ioCode ⟨true, .b, some 0x20#8, false⟩) (exIo 0x11223344#32 0#32 0#32 0#32 0#32) []) 0#32 =
    some (none, [.rd .b 0x20#16 0x41], [0x11223341, 0, 0, 0, 0]) := by decide +kernel
example : exIoSeen (xrun exEnv exDev 0 (ioCode ⟨true, .w, none, false⟩) (exIo 0x11223344#32 0#32 0x770020#32 0#32 0#32) [.wr .b 1#16 2]) 0#32 =
    some (none, [.wr .b 1#16 2, .rd .w 0x20#16 0x42], [0x11220042, 0, 0, 0, 0]) := by decide +kernel
-- with it: port 20h is allowed, 21h is not, nor are the two ports from 20h
example : exIoSeen (xrun exKeep exDev 0 (ioCode ⟨false, .b, some 0x20#8, true⟩) (exIo 0x11223344#32 0#32 0#32 0#32 0#32) []) 0#32 =
    some (none, [.wr .b 0x20#16 0x44], [0x11223344, 0, 0, 0, 0]) := by decide +kernel
example : exIoSeen (xrun exKeep exDev 0 (ioCode ⟨false, .b, none, true⟩) (exIo 0x11223344#32 0#32 0x21#32 0#32 0#32) []) 0#32 =
    some (some .gp, [], [0x11223344, 0, 0, 0, 0]) := by decide +kernel
example : exIoSeen (xrun exKeep exDev 0 (ioCode ⟨true, .w, some 0x20#8, true⟩) (exIo 0x11223344#32 0#32 0x21#32 0#32 0#32) []) 0#32 =
    some (some .gp, [], [0x11223344, 0, 0, 0, 0]) := by decide +kernel
-- a breakpoint
example : exIoSeen (xrun exEnv exDev 0 (ioCode ⟨true, .b, some 0x99#8, false⟩) (exIo 7#32 0#32 0#32 0#32 0#32) []) 0#32 =
    some (some .db, [], [7, 0, 0, 0, 0]) := by decide +kernel
-- REP OUTSB of three bytes
example : exIoSeen (ioStrExec exKeep exDev ⟨false, .b, true, 3, true, true, true, true⟩ 5 (exIo 7#32 3#32 0x20#32 0x2001#32 0#32) []) 0#32 =
    some (none, [.wr .b 0x20#16 1, .wr .b 0x20#16 2, .wr .b 0x20#16 3], [7, 0, 0x2004, 0, 0]) := by decide +kernel
-- REP INSB of three bytes to 0x2FFE: the third may not be written
example : exIoSeen (ioStrExec exEnv exDev ⟨true, .b, true, 3, true, true, true, false⟩ 5 (exIo 7#32 3#32 0x20#32 0#32 0x2FFE#32) []) 0x2FFF#32 =
    some (some .pf, [.rd .b 0x20#16 0x41, .rd .b 0x20#16 0x42, .rd .b 0x20#16 0x43], [7, 1, 0, 0x3000, 0x42]) := by decide +kernel
-- the same from the state it left, when all may be written: the third byte is lost
example : exIoSeen (ioStrExec { exEnv with ok := fun _ _ _ => true } exDev ⟨true, .b, true, 3, true, true, true, false⟩ 5
    (exIo 7#32 1#32 0x20#32 0#32 0x3000#32) [.rd .b 0x20#16 0x41, .rd .b 0x20#16 0x42, .rd .b 0x20#16 0x43]) 0x3000#32 =
    some (none, [.rd .b 0x20#16 0x41, .rd .b 0x20#16 0x42, .rd .b 0x20#16 0x43, .rd .b 0x20#16 0x44], [7, 0, 0, 0x3001, 0x44]) := by decide +kernel

/-- C105 fails for INS: an INS that faults and is then executed again has read the port twice, and what was read first is lost. -/
theorem C105_ins_restart_violation : ∃ (e : Env) (ok : Guest.Ok) (d : Dev) (x : IoStr) (h h2 h3 : Host.St) (t1 t2 : List Ev) (w : Why),
    Wider e ok ∧ IoStrOk e x ∧ h.r .rcx = e.ctx ∧ ioStrExec e d x (2 ^ 32) h [] = .stop w h2.g t1 ∧ h2.r .rcx = e.ctx ∧
    ioStrExec { e with ok := ok } d x (2 ^ 32) h2 t1 = .next 0 h3 t2 ∧ ¬ IoStrDone { e with ok := ok } d x h.g h3.g [] t2 := by
  let e := exEnv
  let x : IoStr := ⟨true, .b, true, 3, true, true, false, false⟩
  let h := exIo 7#32 0#32 0x20#32 0#32 0x3000#32
  have hx : IoStrOk e x := ⟨by decide, fun _ => rfl, fun _ => rfl⟩
  have hx2 : IoStrOk { e with ok := fun _ _ _ => true } x := hx
  have r1 : ioStrExec e exDev x (2 ^ 32) h [] = .stop .pf h.g [.rd .b 0x20#16 0x41] := by
    have hd : exIoSeen (ioStrExec e exDev x (2 ^ 32) h []) 0#32 = some (some .pf, [.rd .b 0x20#16 0x41], [7, 0, 0, 0x3000, 0]) := by decide +kernel
    rcases C105_string_partial e exDev x hx (2 ^ 32) h [] rfl (Nat.le_trans (Nat.mod_le _ _) (Nat.le_of_lt (BitVec.isLt _))) (by decide) with ⟨_, _, a, _⟩ | ⟨w, g', t', a, b | ⟨_, b⟩⟩
    · rw [a] at hd
      simp [exIoSeen] at hd
    · rw [a] at hd
      rw [a, b.2.1]
      simp only [exIoSeen, Option.some.injEq, Prod.mk.injEq] at hd
      rw [hd.1, hd.2.1]
    · rw [a] at hd
      obtain ⟨_, _, t1, _, b⟩ := b
      rw [a, b.2.1]
      simp only [exIoSeen, Option.some.injEq, Prod.mk.injEq] at hd
      rw [hd.1, hd.2.1]
  have r2 : ∃ h3, ioStrExec { e with ok := fun _ _ _ => true } exDev x (2 ^ 32) h [.rd .b 0x20#16 0x41] = .next 0 h3 [.rd .b 0x20#16 0x41, .rd .b 0x20#16 0x42] := by
    have hd : exIoSeen (ioStrExec { e with ok := fun _ _ _ => true } exDev x (2 ^ 32) h [.rd .b 0x20#16 0x41]) 0#32 =
        some (none, [.rd .b 0x20#16 0x41, .rd .b 0x20#16 0x42], [7, 0, 0, 0x3001, 0]) := by decide +kernel
    rcases C105_string_partial { e with ok := fun _ _ _ => true } exDev x hx2 (2 ^ 32) h [.rd .b 0x20#16 0x41] rfl (Nat.le_trans (Nat.mod_le _ _) (Nat.le_of_lt (BitVec.isLt _))) (by decide) with
      ⟨h3, t3, a, _⟩ | ⟨w, g', t', a, b⟩
    · rw [a] at hd
      simp only [exIoSeen, Option.some.injEq, Prod.mk.injEq] at hd
      exact ⟨h3, by rw [a, hd.2.1]⟩
    · rw [a] at hd
      simp [exIoSeen] at hd
  obtain ⟨h3, r2⟩ := r2
  refine ⟨e, _, exDev, x, h, h, h3, _, _, .pf, fun _ _ _ _ => rfl, hx, rfl, r1, rfl, r2, ?_⟩
  intro hdone
  have := congrArg List.length hdone.2
  exact absurd this (by decide)

end Verif.Emit
