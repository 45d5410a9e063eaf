import Verif.Lemmas.Emit
namespace Verif.Emit
open Host Guest

theorem rd_eq_of_r {h h' : St} {r : Reg} (z : Sz) (hr : h'.r r = h.r r) : rd h' z r = rd h z r := by
  unfold rd; rw [hr]

/-- The flags after an addition (`true`) or a subtraction. -/
def arith {n : Nat} (sum : Bool) (s : Flags.St) (a b r : BitVec n) : Flags.St :=
  if sum then Flags.setFlagsSum s a b r else Flags.setFlagsSub s a b r

theorem flagsArith_run {z : Sz} (hz : z ≠ .q) (sum : Bool) (e : Env) (h : St) (hc : h.r .rcx = e.ctx) (a b : Src)
    (isEax : Bool) (ha : Aok a isEax) (hb : Bok b) :
    ∃ h', run e 0 (setFlagsArith sum z a isEax b) h = .next 0 h' ∧
      h'.g = { h.g with fl := arith sum h.g.fl (a.val h z) (b.val h z) (rd h z .r8) } ∧
      h'.r .rcx = e.ctx ∧ h'.r .rbx = h.r .rbx ∧ h'.loc = h.loc ∧ h'.r .r11 = h.r .r11 := by
  cases sum
  · cases z
    · exact flagsSub_b e h hc a b isEax ha hb
    · exact flagsSub_w e h hc a b isEax ha hb
    · exact flagsSub_d e h hc a b isEax ha hb
    · exact absurd rfl hz
  · cases z
    · exact flagsSum_b e h hc a b isEax ha hb
    · exact flagsSum_w e h hc a b isEax ha hb
    · exact flagsSum_d e h hc a b isEax ha hb
    · exact absurd rfl hz

theorem setFlags_run {z : Sz} (hz : z ≠ .q) (e : Env) (h : St) (hc : h.r .rcx = e.ctx) (r : Reg) (v : BitVec 64) :
    ∃ h', run e 0 (setFlags z r (.imm v)) h = .next 0 h' ∧
      h'.g = { h.g with fl := Flags.setFlags h.g.fl (rd h z r) (v.setWidth 32) } ∧
      h'.r .rcx = e.ctx ∧ h'.r .rbx = h.r .rbx ∧ h'.loc = h.loc := by
  unfold setFlags
  cases z
  · hexec [hc]
    refine ⟨_, rfl, ?_, ?_⟩
    · hexec []; rfl
    · hexec []; exact ⟨hc, trivial, trivial⟩
  · hexec [hc]
    refine ⟨_, rfl, ?_, ?_⟩
    · hexec []; rfl
    · hexec []; exact ⟨hc, trivial, trivial⟩
  · hexec [hc]
    refine ⟨_, rfl, ?_, ?_⟩
    · hexec []
      exact congrArg (fun x => ({ h.g with fl := x } : G)) (fl_ext rfl (BitVec.signExtend_eq _).symm rfl)
    · hexec []; exact ⟨hc, trivial, trivial⟩
  · exact absurd rfl hz

/-- The operands given to the operation: the destination register is not the source and neither is R9. -/
def Dok (d : Reg) : Src → Prop
  | .reg r => d ≠ r ∧ d ≠ .r9 ∧ r ≠ .r9 ∧ d ≠ .rcx ∧ r ≠ .rcx
  | .imm _ => d ≠ .r9 ∧ d ≠ .rcx

/-- Code that computes `val` of a register and a source into the register. -/
def OpRuns (e : Env) (z : Sz) (op : Reg → Src → List I)
    (val : Flags.St → BitVec z.bits → BitVec z.bits → BitVec z.bits) : Prop :=
  ∀ d s h, Dok d s → h.r .rcx = e.ctx → ∃ h', run e 0 (op d s) h = .next 0 h' ∧
    rd h' z d = val h.g.fl (rd h z d) (s.val h z) ∧ (∀ r, r ≠ d → r ≠ .r9 → h'.r r = h.r r) ∧
    h'.g = h.g ∧ h'.loc = h.loc

/-- What each instruction computes. -/
def Op.val {n : Nat} : Op → Flags.St → BitVec n → BitVec n → BitVec n
  | .add, _, a, b => a + b
  | .adc, s, a, b => (a + b) + Flags.cfVal n s
  | .sub, _, a, b => a - b
  | .cmp, _, a, b => a - b
  | .sbb, s, a, b => a - (Flags.cfVal n s + b)
  | .and, _, a, b => a &&& b
  | .test, _, a, b => a &&& b
  | .or, _, a, b => a ||| b
  | .xor, _, a, b => a ^^^ b

theorem alu1_run (e : Env) (z : Sz) (o : Alu) : OpRuns e z (fun d s => [.alu o z d s]) (fun _ a b => o.eval a b) := by
  intro d s h _ _
  refine ⟨_, rfl, ?_, ?_, rfl, rfl⟩
  · rw [rd_setF, rd_wr_same]
  · intro r hr _
    rw [setF_r, wr_r_ne _ _ hr]

theorem code_run (e : Env) (z : Sz) (o : Op) : OpRuns e z (o.code z) o.val := by
  cases o
  · exact alu1_run e z .add
  · intro d s h hd hc
    cases s with
    | reg r =>
      obtain ⟨h1, h2, h3, h4, h5⟩ := hd
      unfold Op.code
      hexec [hc, h1, h2, h3, h4, h5, Ne.symm h1, Ne.symm h2, Ne.symm h3, rd_wr_d]
      refine ⟨_, rfl, ?_, ?_, rfl, rfl⟩
      · hexec [hc, h1, h2, h3, h4, h5, Ne.symm h1, Ne.symm h2, Ne.symm h3, rd_wr_d]
        rfl
      · intro q hq hq9
        hexec [hq, hq9]
    | imm v =>
      obtain ⟨h2, h4⟩ := hd
      unfold Op.code
      hexec [hc, h2, h4, Ne.symm h2, rd_wr_d]
      refine ⟨_, rfl, ?_, ?_, rfl, rfl⟩
      · hexec [hc, h2, h4, Ne.symm h2, rd_wr_d]
        rfl
      · intro q hq hq9
        hexec [hq, hq9]
  · exact alu1_run e z .sub
  · intro d s h hd hc
    cases s with
    | reg r =>
      obtain ⟨h1, h2, h3, h4, h5⟩ := hd
      unfold Op.code
      hexec [hc, h1, h2, h3, h4, h5, Ne.symm h1, Ne.symm h2, Ne.symm h3, rd_wr_d]
      refine ⟨_, rfl, ?_, ?_, rfl, rfl⟩
      · hexec [hc, h1, h2, h3, h4, h5, Ne.symm h1, Ne.symm h2, Ne.symm h3, rd_wr_d]
        rfl
      · intro q hq hq9
        hexec [hq, hq9]
    | imm v =>
      obtain ⟨h2, h4⟩ := hd
      unfold Op.code
      hexec [hc, h2, h4, Ne.symm h2, rd_wr_d]
      refine ⟨_, rfl, ?_, ?_, rfl, rfl⟩
      · hexec [hc, h2, h4, Ne.symm h2, rd_wr_d]
        rfl
      · intro q hq hq9
        hexec [hq, hq9]
  · exact alu1_run e z .sub
  · exact alu1_run e z .and
  · exact alu1_run e z .or
  · exact alu1_run e z .xor
  · exact alu1_run e z .and

/-- The code runs to its end and leaves the guest state `g`; RCX points to the context again. -/
def Ends (e : Env) (l : List I) (h : St) (g : G) : Prop :=
  ∃ h', run e 0 l h = .next 0 h' ∧ h'.g = g ∧ h'.r .rcx = e.ctx

theorem ends_append {e : Env} {a b : List I} {h h1 : St} {g : G} (hr : run e 0 a h = .next 0 h1)
    (hb : Ends e b h1 g) : Ends e (a ++ b) h g := by
  obtain ⟨h', h2, h3, h4⟩ := hb
  exact ⟨h', (run_append b hr).trans h2, h3, h4⟩

theorem ends_arith {z : Sz} (hz : z ≠ .q) (sum : Bool) {e : Env} {h : St} (hc : h.r .rcx = e.ctx) {a b : Src}
    {isEax : Bool} (ha : Aok a isEax) (hb : Bok b) :
    Ends e (setFlagsArith sum z a isEax b) h
      { h.g with fl := arith sum h.g.fl (a.val h z) (b.val h z) (rd h z .r8) } := by
  obtain ⟨h', h1, h2, h3, _⟩ := flagsArith_run hz sum e h hc a b isEax ha hb
  exact ⟨h', h1, h2, h3⟩

theorem ends_flags {z : Sz} (hz : z ≠ .q) {e : Env} {h : St} (hc : h.r .rcx = e.ctx) (r : Reg) :
    Ends e (setFlags z r (.imm 0#64)) h { h.g with fl := Flags.setFlags h.g.fl (rd h z r) 0#32 } := by
  obtain ⟨h', h1, h2, h3, _⟩ := setFlags_run hz e h hc r 0#64
  exact ⟨h', h1, h2, h3⟩

/-- Storing the result in a guest register, or not. -/
theorem wd_reg {e : Env} {h : St} (hc : h.r .rcx = e.ctx) (z : Sz) (wd : Bool) (dst : GReg) (r : Reg) :
    ∃ h', run e 0 (if wd then [I.stG z dst r] else []) h = .next 0 h' ∧
      h'.g = (if wd then wrG h.g z dst (rd h z r) else h.g) ∧ h'.r = h.r ∧ h'.loc = h.loc := by
  cases wd
  · exact ⟨h, rfl, rfl, rfl, rfl⟩
  · exact ⟨h.setG (wrG h.g z dst (rd h z r)), by hexec [hc], rfl, rfl, rfl⟩

theorem wrG_fl (g : G) (z : Sz) (dst : GReg) (v : BitVec z.bits) : (wrG g z dst v).fl = g.fl := rfl

theorem if_fl (wd : Bool) (g : G) (z : Sz) (dst : GReg) (v : BitVec z.bits) :
    (if wd then wrG g z dst v else g).fl = g.fl := by cases wd <;> rfl


/-- Templates that store in a guest register or nowhere, logic flags. -/
theorem tplA {z : Sz} (hz : z ≠ .q) {e : Env} {h h1 : St} {op : Reg → Src → List I} {val}
    (ho : OpRuns e z op val) (wd : Bool) (dst : GReg) {pre : List I} {d : Reg} {s : Src} {a b : BitVec z.bits}
    (e1 : run e 0 pre h = .next 0 h1) (g1 : h1.g = h.g) (c1 : h1.r .rcx = e.ctx) (hd : Dok d s)
    (va : rd h1 z d = a) (vb : s.val h1 z = b) :
    Ends e (pre ++ op d s ++ (if wd then [.stG z dst d] else []) ++ setFlags z d (.imm 0#64)) h
      { (if wd then wrG h.g z dst (val h.g.fl a b) else h.g) with
        fl := Flags.setFlags h.g.fl (val h.g.fl a b) 0#32 } := by
  obtain ⟨h2, e2, v2, r2, g2, _⟩ := ho d s h1 hd c1
  have dc : Reg.rcx ≠ d := by
    cases s
    · exact Ne.symm hd.2.2.2.1
    · exact Ne.symm hd.2
  have c2 : h2.r .rcx = e.ctx := (r2 _ dc (by decide)).trans c1
  obtain ⟨h3, e3, g3, r3, _⟩ := wd_reg c2 z wd dst d
  have c3 : h3.r .rcx = e.ctx := by rw [r3]; exact c2
  rw [List.append_assoc, List.append_assoc]
  refine ends_append e1 (ends_append e2 (ends_append e3 ?_))
  have := ends_flags hz c3 d
  rw [rd_eq_of_r z (congrFun r3 _), g3, v2, g2, g1, va, vb, if_fl] at this
  exact this

/-- The operands of the flag sequence survive the operation. -/
def Keeps8 (s : Src) : Prop := ∀ h h' : St, (∀ r, r ≠ .r8 → r ≠ .r9 → h'.r r = h.r r) → ∀ z, s.val h' z = s.val h z

theorem keeps8_reg {r : Reg} (h1 : r ≠ .r8) (h2 : r ≠ .r9) : Keeps8 (.reg r) :=
  fun _ _ hr z => rd_eq_of_r z (hr r h1 h2)
theorem keeps8_imm (v : BitVec 64) : Keeps8 (.imm v) := fun _ _ _ _ => rfl

theorem val_of_r {h h' : St} (s : Src) (hr : h'.r = h.r) (z : Sz) : s.val h' z = s.val h z := by
  cases s with
  | reg r => exact rd_eq_of_r z (congrFun hr r)
  | imm v => rfl

/-- Templates that store in a guest register or nowhere, arithmetic flags. -/
theorem tplB {z : Sz} (hz : z ≠ .q) {e : Env} {h h1 : St} {op : Reg → Src → List I} {val}
    (ho : OpRuns e z op val) (sum wd : Bool) (dst : GReg) {pre : List I} {s fa : Src} {isEax : Bool} {a b : BitVec z.bits}
    (e1 : run e 0 pre h = .next 0 h1) (g1 : h1.g = h.g) (c1 : h1.r .rcx = e.ctx) (hd : Dok .r8 s)
    (v8 : rd h1 z .r8 = a) (vb : s.val h1 z = b) (va : fa.val h1 z = a) (hfa : Keeps8 fa) (hfb : Keeps8 s)
    (ha : Aok fa isEax) (hb : Bok s) :
    Ends e (pre ++ op .r8 s ++ (if wd then [.stG z dst .r8] else []) ++ setFlagsArith sum z fa isEax s) h
      { (if wd then wrG h.g z dst (val h.g.fl a b) else h.g) with
        fl := arith sum h.g.fl a b (val h.g.fl a b) } := by
  obtain ⟨h2, e2, v2, r2, g2, _⟩ := ho .r8 s h1 hd c1
  have c2 : h2.r .rcx = e.ctx := (r2 _ (by decide) (by decide)).trans c1
  obtain ⟨h3, e3, g3, r3, _⟩ := wd_reg c2 z wd dst .r8
  have c3 : h3.r .rcx = e.ctx := by rw [r3]; exact c2
  rw [List.append_assoc, List.append_assoc]
  refine ends_append e1 (ends_append e2 (ends_append e3 ?_))
  have := ends_arith hz sum c3 ha hb
  rw [rd_eq_of_r z (congrFun r3 _), val_of_r fa r3, val_of_r s r3, hfa h1 h2 r2 z, hfb h1 h2 r2 z,
    g3, v2, g2, g1, v8, va, vb, if_fl] at this
  exact this

theorem rToRmReg_run {z : Sz} (hz : z ≠ .q) {e : Env} {h : St} (hc : h.r .rcx = e.ctx) {op : Reg → Src → List I} {val}
    (ho : OpRuns e z op val) (wd : Bool) (dst src : GReg) :
    Ends e (rToRmReg op z wd dst src) h
      { (if wd then wrG h.g z dst (val h.g.fl (rdG h.g z dst) (rdG h.g z src)) else h.g) with
        fl := Flags.setFlags h.g.fl (val h.g.fl (rdG h.g z dst) (rdG h.g z src)) 0#32 } := by
  unfold rToRmReg
  obtain ⟨h1, e1, g1, c1, f1, f2⟩ : ∃ h1, run e 0 ([.ldG z .rdx src, .ldG z .rax dst]) h = .next 0 h1 ∧ h1.g = h.g ∧
      h1.r .rcx = e.ctx ∧ rd h1 z .rax = rdG h.g z dst ∧ Src.val h1 z (.reg .rdx) = rdG h.g z src := by
    hexec [hc]
    refine ⟨_, rfl, ?_⟩
    hexec [hc]
    simp
  exact tplA hz ho wd dst e1 g1 c1 (by simp [Dok]) f1 f2

theorem rToRmFlagsReg_run {z : Sz} (hz : z ≠ .q) {e : Env} {h : St} (hc : h.r .rcx = e.ctx) {op : Reg → Src → List I} {val}
    (ho : OpRuns e z op val) (sum : Bool) (wd : Bool) (dst src : GReg) :
    Ends e (rToRmFlagsReg op sum z wd dst src) h
      { (if wd then wrG h.g z dst (val h.g.fl (rdG h.g z dst) (rdG h.g z src)) else h.g) with
        fl := arith sum h.g.fl (rdG h.g z dst) (rdG h.g z src) (val h.g.fl (rdG h.g z dst) (rdG h.g z src)) } := by
  unfold rToRmFlagsReg
  obtain ⟨h1, e1, g1, c1, f1, f2, f3⟩ : ∃ h1, run e 0 ([.ldG z .rax dst, .ldG z .rbx src, .mov z .r8 (.reg .rax)]) h = .next 0 h1 ∧ h1.g = h.g ∧
      h1.r .rcx = e.ctx ∧ rd h1 z .r8 = rdG h.g z dst ∧ Src.val h1 z (.reg .rbx) = rdG h.g z src ∧ Src.val h1 z (.reg .rax) = rdG h.g z dst := by
    hexec [hc]
    refine ⟨_, rfl, ?_⟩
    hexec [hc]
    simp
  exact tplB hz ho sum wd dst e1 g1 c1 (by simp [Dok]) f1 f2 f3 (keeps8_reg (by decide) (by decide)) (keeps8_reg (by decide) (by decide)) (Or.inl ⟨rfl, rfl⟩) (Or.inl rfl)

theorem rmToRReg_run {z : Sz} (hz : z ≠ .q) {e : Env} {h : St} (hc : h.r .rcx = e.ctx) {op : Reg → Src → List I} {val}
    (ho : OpRuns e z op val) (wd : Bool) (dst src : GReg) :
    Ends e (rmToRReg op z wd dst src) h
      { (if wd then wrG h.g z dst (val h.g.fl (rdG h.g z dst) (rdG h.g z src)) else h.g) with
        fl := Flags.setFlags h.g.fl (val h.g.fl (rdG h.g z dst) (rdG h.g z src)) 0#32 } := by
  unfold rmToRReg
  obtain ⟨h1, e1, g1, c1, f1, f2⟩ : ∃ h1, run e 0 ([.ldG z .rbx dst, .ldG z .rax src]) h = .next 0 h1 ∧ h1.g = h.g ∧
      h1.r .rcx = e.ctx ∧ rd h1 z .rbx = rdG h.g z dst ∧ Src.val h1 z (.reg .rax) = rdG h.g z src := by
    hexec [hc]
    refine ⟨_, rfl, ?_⟩
    hexec [hc]
    simp
  exact tplA hz ho wd dst e1 g1 c1 (by simp [Dok]) f1 f2

theorem rmToRMem_run {z : Sz} (hz : z ≠ .q) {e : Env} {h : St} (hc : h.r .rcx = e.ctx) {op : Reg → Src → List I} {val}
    (ho : OpRuns e z op val) (wd : Bool) (dst : GReg) (adr : Ea) (hok : e.ok adr z.bytes false = true) :
    Ends e (rmToRMem op z wd dst adr) h
      { (if wd then wrG h.g z dst (val h.g.fl (rdG h.g z dst) (BitVec.ofNat z.bits (load h.g.mem adr z.bytes))) else h.g) with
        fl := Flags.setFlags h.g.fl (val h.g.fl (rdG h.g z dst) (BitVec.ofNat z.bits (load h.g.mem adr z.bytes))) 0#32 } := by
  unfold rmToRMem
  obtain ⟨h1, e1, g1, c1, f1, f2⟩ : ∃ h1, run e 0 ([.ldG z .rbx dst, .ea adr, .ldMem z]) h = .next 0 h1 ∧ h1.g = h.g ∧
      h1.r .rcx = e.ctx ∧ rd h1 z .rbx = rdG h.g z dst ∧ Src.val h1 z (.reg .rax) = BitVec.ofNat z.bits (load h.g.mem adr z.bytes) := by
    hexec [hc, hok]
    refine ⟨_, rfl, ?_⟩
    hexec [hc, hok]
    simp
  exact tplA hz ho wd dst e1 g1 c1 (by simp [Dok]) f1 f2

theorem rmToRFlagsReg_run {z : Sz} (hz : z ≠ .q) {e : Env} {h : St} (hc : h.r .rcx = e.ctx) {op : Reg → Src → List I} {val}
    (ho : OpRuns e z op val) (sum : Bool) (wd : Bool) (dst src : GReg) :
    Ends e (rmToRFlagsReg op sum z wd dst src) h
      { (if wd then wrG h.g z dst (val h.g.fl (rdG h.g z dst) (rdG h.g z src)) else h.g) with
        fl := arith sum h.g.fl (rdG h.g z dst) (rdG h.g z src) (val h.g.fl (rdG h.g z dst) (rdG h.g z src)) } := by
  unfold rmToRFlagsReg
  obtain ⟨h1, e1, g1, c1, f1, f2, f3⟩ : ∃ h1, run e 0 ([.ldG z .rax dst, .ldG z .rbx src, .mov z .r8 (.reg .rax)]) h = .next 0 h1 ∧ h1.g = h.g ∧
      h1.r .rcx = e.ctx ∧ rd h1 z .r8 = rdG h.g z dst ∧ Src.val h1 z (.reg .rbx) = rdG h.g z src ∧ Src.val h1 z (.reg .rax) = rdG h.g z dst := by
    hexec [hc]
    refine ⟨_, rfl, ?_⟩
    hexec [hc]
    simp
  exact tplB hz ho sum wd dst e1 g1 c1 (by simp [Dok]) f1 f2 f3 (keeps8_reg (by decide) (by decide)) (keeps8_reg (by decide) (by decide)) (Or.inl ⟨rfl, rfl⟩) (Or.inl rfl)

theorem rmToRFlagsMem_run {z : Sz} (hz : z ≠ .q) {e : Env} {h : St} (hc : h.r .rcx = e.ctx) {op : Reg → Src → List I} {val}
    (ho : OpRuns e z op val) (sum : Bool) (wd : Bool) (dst : GReg) (adr : Ea) (hok : e.ok adr z.bytes false = true) :
    Ends e (rmToRFlagsMem op sum z wd dst adr) h
      { (if wd then wrG h.g z dst (val h.g.fl (rdG h.g z dst) (BitVec.ofNat z.bits (load h.g.mem adr z.bytes))) else h.g) with
        fl := arith sum h.g.fl (rdG h.g z dst) (BitVec.ofNat z.bits (load h.g.mem adr z.bytes)) (val h.g.fl (rdG h.g z dst) (BitVec.ofNat z.bits (load h.g.mem adr z.bytes))) } := by
  unfold rmToRFlagsMem
  obtain ⟨h1, e1, g1, c1, f1, f2, f3⟩ : ∃ h1, run e 0 ([.ea adr, .ldMem z, .mov z .rdx (.reg .rax), .ldG z .rbx dst, .mov z .r8 (.reg .rbx)]) h = .next 0 h1 ∧ h1.g = h.g ∧
      h1.r .rcx = e.ctx ∧ rd h1 z .r8 = rdG h.g z dst ∧ Src.val h1 z (.reg .rdx) = BitVec.ofNat z.bits (load h.g.mem adr z.bytes) ∧ Src.val h1 z (.reg .rbx) = rdG h.g z dst := by
    hexec [hc, hok]
    refine ⟨_, rfl, ?_⟩
    hexec [hc, hok]
    simp
  exact tplB hz ho sum wd dst e1 g1 c1 (by simp [Dok]) f1 f2 f3 (keeps8_reg (by decide) (by decide)) (keeps8_reg (by decide) (by decide)) (Or.inr ⟨rfl, Or.inl rfl⟩) (Or.inr (Or.inl rfl))

theorem immToReg_run {z : Sz} (hz : z ≠ .q) {e : Env} {h : St} (hc : h.r .rcx = e.ctx) {op : Reg → Src → List I} {val}
    (ho : OpRuns e z op val) (wd : Bool) (dst : GReg) (v : BitVec 64) :
    Ends e (immToReg op z wd dst v) h
      { (if wd then wrG h.g z dst (val h.g.fl (rdG h.g z dst) (v.setWidth z.bits)) else h.g) with
        fl := Flags.setFlags h.g.fl (val h.g.fl (rdG h.g z dst) (v.setWidth z.bits)) 0#32 } := by
  unfold immToReg
  obtain ⟨h1, e1, g1, c1, f1, f2⟩ : ∃ h1, run e 0 ([.ldG z .rax dst]) h = .next 0 h1 ∧ h1.g = h.g ∧
      h1.r .rcx = e.ctx ∧ rd h1 z .rax = rdG h.g z dst ∧ Src.val h1 z (.imm v) = v.setWidth z.bits := by
    hexec [hc]
    refine ⟨_, rfl, ?_⟩
    hexec [hc]
    simp
  exact tplA hz ho wd dst e1 g1 c1 (by simp [Dok]) f1 f2

theorem immToRegFlags_run {z : Sz} (hz : z ≠ .q) {e : Env} {h : St} (hc : h.r .rcx = e.ctx) {op : Reg → Src → List I} {val}
    (ho : OpRuns e z op val) (sum : Bool) (wd : Bool) (dst : GReg) (v : BitVec 64) :
    Ends e (immToRegFlags op sum z wd dst v) h
      { (if wd then wrG h.g z dst (val h.g.fl (rdG h.g z dst) (v.setWidth z.bits)) else h.g) with
        fl := arith sum h.g.fl (rdG h.g z dst) (v.setWidth z.bits) (val h.g.fl (rdG h.g z dst) (v.setWidth z.bits)) } := by
  unfold immToRegFlags
  obtain ⟨h1, e1, g1, c1, f1, f2, f3⟩ : ∃ h1, run e 0 ([.ldG z .rax dst, .mov z .r8 (.reg .rax)]) h = .next 0 h1 ∧ h1.g = h.g ∧
      h1.r .rcx = e.ctx ∧ rd h1 z .r8 = rdG h.g z dst ∧ Src.val h1 z (.imm v) = v.setWidth z.bits ∧ Src.val h1 z (.reg .rax) = rdG h.g z dst := by
    hexec [hc]
    refine ⟨_, rfl, ?_⟩
    hexec [hc]
    simp
  exact tplB hz ho sum wd dst e1 g1 c1 (by simp [Dok]) f1 f2 f3 (keeps8_reg (by decide) (by decide)) (keeps8_imm _) (Or.inl ⟨rfl, rfl⟩) (Or.inr (Or.inr ⟨_, rfl⟩))

theorem rToRmMem_nw {z : Sz} (hz : z ≠ .q) {e : Env} {h : St} (hc : h.r .rcx = e.ctx) {op : Reg → Src → List I} {val}
    (ho : OpRuns e z op val) (adr : Ea) (src : GReg) (hok : e.ok adr z.bytes false = true) :
    Ends e (rToRmMem op z false adr src) h
      { h.g with fl := Flags.setFlags h.g.fl (val h.g.fl (BitVec.ofNat z.bits (load h.g.mem adr z.bytes)) (rdG h.g z src)) 0#32 } := by
  unfold rToRmMem
  rw [if_neg (by decide)]
  obtain ⟨h1, e1, g1, c1, f1, f2⟩ : ∃ h1, run e 0 ([.ea adr, .ldMem z, .ldG z .rdx src]) h = .next 0 h1 ∧ h1.g = h.g ∧
      h1.r .rcx = e.ctx ∧ rd h1 z .rax = BitVec.ofNat z.bits (load h.g.mem adr z.bytes) ∧ Src.val h1 z (.reg .rdx) = rdG h.g z src := by
    hexec [hc, hok]
    refine ⟨_, rfl, ?_⟩
    hexec [hc, hok]
    simp
  have := tplA hz ho false ⟨0, false⟩ e1 g1 c1 (by simp [Dok]) f1 f2
  simpa only [List.append_assoc, List.cons_append, List.nil_append, Bool.false_eq_true, if_false, ite_false] using this

theorem rToRmFlagsMem_nw {z : Sz} (hz : z ≠ .q) {e : Env} {h : St} (hc : h.r .rcx = e.ctx) {op : Reg → Src → List I} {val}
    (ho : OpRuns e z op val) (sum : Bool) (adr : Ea) (src : GReg) (hok : e.ok adr z.bytes false = true) :
    Ends e (rToRmFlagsMem op sum z false adr src) h
      { h.g with fl := arith sum h.g.fl (BitVec.ofNat z.bits (load h.g.mem adr z.bytes)) (rdG h.g z src) (val h.g.fl (BitVec.ofNat z.bits (load h.g.mem adr z.bytes)) (rdG h.g z src)) } := by
  unfold rToRmFlagsMem
  rw [if_neg (by decide)]
  obtain ⟨h1, e1, g1, c1, f1, f2, f3⟩ : ∃ h1, run e 0 ([.ea adr, .ldMem z, .ldG z .rbx src, .mov z .r8 (.reg .rax)]) h = .next 0 h1 ∧ h1.g = h.g ∧
      h1.r .rcx = e.ctx ∧ rd h1 z .r8 = BitVec.ofNat z.bits (load h.g.mem adr z.bytes) ∧ Src.val h1 z (.reg .rbx) = rdG h.g z src ∧ Src.val h1 z (.reg .rax) = BitVec.ofNat z.bits (load h.g.mem adr z.bytes) := by
    hexec [hc, hok]
    refine ⟨_, rfl, ?_⟩
    hexec [hc, hok]
    simp
  have := tplB hz ho sum false ⟨0, false⟩ e1 g1 c1 (by simp [Dok]) f1 f2 f3 (keeps8_reg (by decide) (by decide)) (keeps8_reg (by decide) (by decide)) (Or.inl ⟨rfl, rfl⟩) (Or.inl rfl)
  simpa only [List.append_assoc, List.cons_append, List.nil_append, Bool.false_eq_true, if_false, ite_false] using this

theorem immToMem_nw {z : Sz} (hz : z ≠ .q) {e : Env} {h : St} (hc : h.r .rcx = e.ctx) {op : Reg → Src → List I} {val}
    (ho : OpRuns e z op val) (adr : Ea) (v : BitVec 64) (hok : e.ok adr z.bytes false = true) :
    Ends e (immToMem op z false adr v) h
      { h.g with fl := Flags.setFlags h.g.fl (val h.g.fl (BitVec.ofNat z.bits (load h.g.mem adr z.bytes)) (v.setWidth z.bits)) 0#32 } := by
  unfold immToMem
  rw [if_neg (by decide)]
  obtain ⟨h1, e1, g1, c1, f1, f2⟩ : ∃ h1, run e 0 ([.ea adr, .ldMem z]) h = .next 0 h1 ∧ h1.g = h.g ∧
      h1.r .rcx = e.ctx ∧ rd h1 z .rax = BitVec.ofNat z.bits (load h.g.mem adr z.bytes) ∧ Src.val h1 z (.imm v) = v.setWidth z.bits := by
    hexec [hc, hok]
    refine ⟨_, rfl, ?_⟩
    hexec [hc, hok]
    simp
  have := tplA hz ho false ⟨0, false⟩ e1 g1 c1 (by simp [Dok]) f1 f2
  simpa only [List.append_assoc, List.cons_append, List.nil_append, Bool.false_eq_true, if_false, ite_false] using this

/-- Reading a register that is not changed. -/
theorem rd_op {h h' : St} {d : Reg} (hr : ∀ r, r ≠ d → r ≠ .r9 → h'.r r = h.r r) (z : Sz) {r : Reg} (h1 : r ≠ d)
    (h2 : r ≠ .r9) : rd h' z r = rd h z r := rd_eq_of_r z (hr r h1 h2)

theorem rToRmMem_wr {z : Sz} (hz : z ≠ .q) {e : Env} {h : St} (hc : h.r .rcx = e.ctx) {op : Reg → Src → List I} {val}
    (ho : OpRuns e z op val) (adr : Ea) (src : GReg) (hok : e.ok adr z.bytes false = true) :
    (e.ok adr z.bytes true = true → Ends e (rToRmMem op z true adr src) h
      { h.g with mem := store h.g.mem adr z.bytes (val h.g.fl (BitVec.ofNat z.bits (load h.g.mem adr z.bytes)) (rdG h.g z src)).toNat, fl := Flags.setFlags h.g.fl (val h.g.fl (BitVec.ofNat z.bits (load h.g.mem adr z.bytes)) (rdG h.g z src)) 0#32 }) ∧
    (e.ok adr z.bytes true = false → run e 0 (rToRmMem op z true adr src) h = .fault h.g) := by
  unfold rToRmMem
  rw [if_pos rfl]
  obtain ⟨h1, e1, g1, c1, f1, f2, f3⟩ : ∃ h1, run e 0 ([.ea adr, .mov .d .rbx (.reg .rdx), .ldMem z, .ldG z .rdx src]) h = .next 0 h1 ∧ h1.g = h.g ∧
      h1.r .rcx = e.ctx ∧ rd h1 z .rax = BitVec.ofNat z.bits (load h.g.mem adr z.bytes) ∧ Src.val h1 z (.reg .rdx) = rdG h.g z src ∧ rd h1 .d .rbx = adr := by
    hexec [hc, hok]
    refine ⟨_, rfl, ?_⟩
    hexec [hc, hok]
    simp
  obtain ⟨h2, e2, v2, r2, g2, _⟩ := ho .rax (.reg .rdx) h1 (by simp [Dok]) c1
  have c2 : h2.r .rcx = e.ctx := (r2 _ (by decide) (by decide)).trans c1
  have b2 : rd h2 .d .rbx = adr := (rd_op r2 .d (by decide) (by decide)).trans f3
  rw [f1, f2, g1] at v2
  rw [g1] at g2
  constructor
  · intro hw
    obtain ⟨h3, e3, g3, c3, f4⟩ : ∃ h3, run e 0 [.mov .d .rdx (.reg .rbx), .mov z .r8 (.reg .rax), .mov z .rbx (.reg .rax), .stMem z] h2 =
        .next 0 h3 ∧ h3.g = { h.g with mem := store h.g.mem adr z.bytes (val h.g.fl (BitVec.ofNat z.bits (load h.g.mem adr z.bytes)) (rdG h.g z src)).toNat } ∧ h3.r .rcx = e.ctx ∧ rd h3 z .rbx = val h.g.fl (BitVec.ofNat z.bits (load h.g.mem adr z.bytes)) (rdG h.g z src) := by
      hexec [c2, hw, b2, v2, g2]
      refine ⟨_, rfl, ?_⟩
      hexec [c2, hw, b2, v2, g2]
      simp
    have := ends_append e1 (ends_append e2 (ends_append e3 (ends_flags hz c3 .rbx)))
    rw [f4, g3] at this
    simpa only [List.append_assoc, List.cons_append, List.nil_append] using this
  · intro hw
    have e3 : run e 0 [.mov .d .rdx (.reg .rbx), .mov z .r8 (.reg .rax), .mov z .rbx (.reg .rax), .stMem z] h2 = .fault h.g := by
      hexec [c2, hw, b2, v2, g2, Bool.false_eq_true]
    have := (run_append (op .rax (.reg .rdx) ++ ([.mov .d .rdx (.reg .rbx), .mov z .r8 (.reg .rax), .mov z .rbx (.reg .rax), .stMem z] ++
      setFlags z .rbx (.imm 0#64))) e1).trans ((run_append _ e2).trans (run_append_fault _ e3))
    simpa only [List.append_assoc, List.cons_append, List.nil_append] using this

theorem immToMem_wr {z : Sz} (hz : z ≠ .q) {e : Env} {h : St} (hc : h.r .rcx = e.ctx) {op : Reg → Src → List I} {val}
    (ho : OpRuns e z op val) (adr : Ea) (v : BitVec 64) (hok : e.ok adr z.bytes false = true) :
    (e.ok adr z.bytes true = true → Ends e (immToMem op z true adr v) h
      { h.g with mem := store h.g.mem adr z.bytes (val h.g.fl (BitVec.ofNat z.bits (load h.g.mem adr z.bytes)) (v.setWidth z.bits)).toNat, fl := Flags.setFlags h.g.fl (val h.g.fl (BitVec.ofNat z.bits (load h.g.mem adr z.bytes)) (v.setWidth z.bits)) 0#32 }) ∧
    (e.ok adr z.bytes true = false → run e 0 (immToMem op z true adr v) h = .fault h.g) := by
  unfold immToMem
  rw [if_pos rfl]
  obtain ⟨h1, e1, g1, c1, f1, f2, f3⟩ : ∃ h1, run e 0 ([.ea adr, .mov .d .rbx (.reg .rdx), .ldMem z]) h = .next 0 h1 ∧ h1.g = h.g ∧
      h1.r .rcx = e.ctx ∧ rd h1 z .rax = BitVec.ofNat z.bits (load h.g.mem adr z.bytes) ∧ Src.val h1 z (.imm v) = v.setWidth z.bits ∧ rd h1 .d .rbx = adr := by
    hexec [hc, hok]
    refine ⟨_, rfl, ?_⟩
    hexec [hc, hok]
    simp
  obtain ⟨h2, e2, v2, r2, g2, _⟩ := ho .rax (.imm v) h1 (by simp [Dok]) c1
  have c2 : h2.r .rcx = e.ctx := (r2 _ (by decide) (by decide)).trans c1
  have b2 : rd h2 .d .rbx = adr := (rd_op r2 .d (by decide) (by decide)).trans f3
  rw [f1, f2, g1] at v2
  rw [g1] at g2
  constructor
  · intro hw
    obtain ⟨h3, e3, g3, c3, f4⟩ : ∃ h3, run e 0 [.mov .d .rdx (.reg .rbx), .mov z .r8 (.reg .rax), .mov z .rbx (.reg .rax), .stMem z] h2 =
        .next 0 h3 ∧ h3.g = { h.g with mem := store h.g.mem adr z.bytes (val h.g.fl (BitVec.ofNat z.bits (load h.g.mem adr z.bytes)) (v.setWidth z.bits)).toNat } ∧ h3.r .rcx = e.ctx ∧ rd h3 z .rbx = val h.g.fl (BitVec.ofNat z.bits (load h.g.mem adr z.bytes)) (v.setWidth z.bits) := by
      hexec [c2, hw, b2, v2, g2]
      refine ⟨_, rfl, ?_⟩
      hexec [c2, hw, b2, v2, g2]
      simp
    have := ends_append e1 (ends_append e2 (ends_append e3 (ends_flags hz c3 .rbx)))
    rw [f4, g3] at this
    simpa only [List.append_assoc, List.cons_append, List.nil_append] using this
  · intro hw
    have e3 : run e 0 [.mov .d .rdx (.reg .rbx), .mov z .r8 (.reg .rax), .mov z .rbx (.reg .rax), .stMem z] h2 = .fault h.g := by
      hexec [c2, hw, b2, v2, g2, Bool.false_eq_true]
    have := (run_append (op .rax (.imm v) ++ ([.mov .d .rdx (.reg .rbx), .mov z .r8 (.reg .rax), .mov z .rbx (.reg .rax), .stMem z] ++
      setFlags z .rbx (.imm 0#64))) e1).trans ((run_append _ e2).trans (run_append_fault _ e3))
    simpa only [List.append_assoc, List.cons_append, List.nil_append] using this

theorem rToRmFlagsMem_wr {z : Sz} (hz : z ≠ .q) {e : Env} {h : St} (hc : h.r .rcx = e.ctx) {op : Reg → Src → List I} {val}
    (ho : OpRuns e z op val) (sum : Bool) (adr : Ea) (src : GReg) (hok : e.ok adr z.bytes false = true) :
    (e.ok adr z.bytes true = true → Ends e (rToRmFlagsMem op sum z true adr src) h
      { h.g with mem := store h.g.mem adr z.bytes (val h.g.fl (BitVec.ofNat z.bits (load h.g.mem adr z.bytes)) (rdG h.g z src)).toNat, fl := arith sum h.g.fl (BitVec.ofNat z.bits (load h.g.mem adr z.bytes)) (rdG h.g z src) (val h.g.fl (BitVec.ofNat z.bits (load h.g.mem adr z.bytes)) (rdG h.g z src)) }) ∧
    (e.ok adr z.bytes true = false → run e 0 (rToRmFlagsMem op sum z true adr src) h = .fault h.g) := by
  unfold rToRmFlagsMem
  rw [if_pos rfl]
  obtain ⟨h1, e1, g1, c1, f1, f2, f3, f4⟩ : ∃ h1, run e 0 ([.ea adr, .mov .d .rbx (.reg .rdx), .ldMem z, .mov .d .rdx (.reg .rbx), .ldG z .rbx src, .mov z .r8 (.reg .rax)]) h = .next 0 h1 ∧ h1.g = h.g ∧
      h1.r .rcx = e.ctx ∧ rd h1 z .r8 = BitVec.ofNat z.bits (load h.g.mem adr z.bytes) ∧ Src.val h1 z (.reg .rbx) = rdG h.g z src ∧ rd h1 .d .rdx = adr ∧ rd h1 z .rax = BitVec.ofNat z.bits (load h.g.mem adr z.bytes) := by
    hexec [hc, hok]
    refine ⟨_, rfl, ?_⟩
    hexec [hc, hok]
    simp
  obtain ⟨h2, e2, v2, r2, g2, l2⟩ := ho .r8 (.reg .rbx) h1 (by simp [Dok]) c1
  have c2 : h2.r .rcx = e.ctx := (r2 _ (by decide) (by decide)).trans c1
  have b2 : rd h2 .d .rdx = adr := (rd_op r2 .d (by decide) (by decide)).trans f3
  have a2 : rd h2 z .rax = BitVec.ofNat z.bits (load h.g.mem adr z.bytes) := (rd_op r2 z (by decide) (by decide)).trans f4
  have s2 : rd h2 z .rbx = rdG h.g z src := (rd_op r2 z (by decide) (by decide)).trans f2
  rw [f1, f2, g1] at v2
  rw [g1] at g2
  constructor
  · intro hw
    obtain ⟨h3, e3, g3, c3, f5, f6, f7⟩ : ∃ h3, run e 0 ([.stL z 0 .rax, .stL z 1 .r8, .stMem z, .ldL z .rax 0, .ldL z .r8 1]) h2 =
        .next 0 h3 ∧ h3.g = { h.g with mem := store h.g.mem adr z.bytes (val h.g.fl (BitVec.ofNat z.bits (load h.g.mem adr z.bytes)) (rdG h.g z src)).toNat } ∧ h3.r .rcx = e.ctx ∧ rd h3 z .r8 = val h.g.fl (BitVec.ofNat z.bits (load h.g.mem adr z.bytes)) (rdG h.g z src) ∧
        rd h3 z .rax = BitVec.ofNat z.bits (load h.g.mem adr z.bytes) ∧ Src.val h3 z (.reg .rbx) = rdG h.g z src := by
      hexec [c2, hw, b2, v2, g2, a2, s2]
      refine ⟨_, rfl, ?_⟩
      hexec [c2, hw, b2, v2, g2, a2, s2]
      simp
    have := ends_append e1 (ends_append e2 (ends_append e3 (ends_arith hz sum c3 (a := .reg .rax) (isEax := true) (Or.inl ⟨rfl, rfl⟩) (b := .reg .rbx) (Or.inl rfl))))
    rw [f5, val_reg, f6, f7, g3] at this
    simpa only [List.append_assoc, List.cons_append, List.nil_append] using this
  · intro hw
    have e3 : run e 0 ([.stL z 0 .rax, .stL z 1 .r8, .stMem z, .ldL z .rax 0, .ldL z .r8 1]) h2 = .fault h.g := by
      hexec [c2, hw, b2, v2, g2, Bool.false_eq_true]
    have := (run_append (op .r8 (.reg .rbx) ++ (([.stL z 0 .rax, .stL z 1 .r8, .stMem z, .ldL z .rax 0, .ldL z .r8 1]) ++
      setFlagsArith sum z (.reg .rax) true (.reg .rbx))) e1).trans ((run_append _ e2).trans (run_append_fault _ e3))
    simpa only [List.append_assoc, List.cons_append, List.nil_append] using this

theorem immToMemFlags_wr {z : Sz} (hz : z ≠ .q) {e : Env} {h : St} (hc : h.r .rcx = e.ctx) {op : Reg → Src → List I} {val}
    (ho : OpRuns e z op val) (sum : Bool) (adr : Ea) (v : BitVec 64) (hok : e.ok adr z.bytes false = true) :
    (e.ok adr z.bytes true = true → Ends e (immToMemFlags op sum z true adr v) h
      { h.g with mem := store h.g.mem adr z.bytes (val h.g.fl (BitVec.ofNat z.bits (load h.g.mem adr z.bytes)) (v.setWidth z.bits)).toNat, fl := arith sum h.g.fl (BitVec.ofNat z.bits (load h.g.mem adr z.bytes)) (v.setWidth z.bits) (val h.g.fl (BitVec.ofNat z.bits (load h.g.mem adr z.bytes)) (v.setWidth z.bits)) }) ∧
    (e.ok adr z.bytes true = false → run e 0 (immToMemFlags op sum z true adr v) h = .fault h.g) := by
  unfold immToMemFlags
  rw [if_pos rfl]
  obtain ⟨h1, e1, g1, c1, f1, f2, f3, f4⟩ : ∃ h1, run e 0 ([.ea adr, .mov .d .rbx (.reg .rdx), .ldMem z, .mov .d .rdx (.reg .rbx), .stL z 0 .rax, .mov z .rbx (.reg .rax)]) h = .next 0 h1 ∧ h1.g = h.g ∧
      h1.r .rcx = e.ctx ∧ rd h1 z .rbx = BitVec.ofNat z.bits (load h.g.mem adr z.bytes) ∧ Src.val h1 z (.imm v) = v.setWidth z.bits ∧ rd h1 .d .rdx = adr ∧ rdL h1 z 0 = BitVec.ofNat z.bits (load h.g.mem adr z.bytes) := by
    hexec [hc, hok]
    refine ⟨_, rfl, ?_⟩
    hexec [hc, hok]
    simp
  obtain ⟨h2, e2, v2, r2, g2, l2⟩ := ho .rbx (.imm v) h1 (by simp [Dok]) c1
  have c2 : h2.r .rcx = e.ctx := (r2 _ (by decide) (by decide)).trans c1
  have b2 : rd h2 .d .rdx = adr := (rd_op r2 .d (by decide) (by decide)).trans f3
  have a2 : rdL h2 z 0 = BitVec.ofNat z.bits (load h.g.mem adr z.bytes) := (rdL_of_loc l2 z 0).trans f4
  
  rw [f1, f2, g1] at v2
  rw [g1] at g2
  constructor
  · intro hw
    obtain ⟨h3, e3, g3, c3, f5, f6, f7⟩ : ∃ h3, run e 0 ([.mov z .r8 (.reg .rbx), .stMem z, .ldL z .rax 0, .mov z .r8 (.reg .rbx)]) h2 =
        .next 0 h3 ∧ h3.g = { h.g with mem := store h.g.mem adr z.bytes (val h.g.fl (BitVec.ofNat z.bits (load h.g.mem adr z.bytes)) (v.setWidth z.bits)).toNat } ∧ h3.r .rcx = e.ctx ∧ rd h3 z .r8 = val h.g.fl (BitVec.ofNat z.bits (load h.g.mem adr z.bytes)) (v.setWidth z.bits) ∧
        rd h3 z .rax = BitVec.ofNat z.bits (load h.g.mem adr z.bytes) ∧ Src.val h3 z (.imm v) = v.setWidth z.bits := by
      hexec [c2, hw, b2, v2, g2, a2]
      refine ⟨_, rfl, ?_⟩
      hexec [c2, hw, b2, v2, g2, a2]
      simp
    have := ends_append e1 (ends_append e2 (ends_append e3 (ends_arith hz sum c3 (a := .reg .rax) (isEax := true) (Or.inl ⟨rfl, rfl⟩) (b := .imm v) (Or.inr (Or.inr ⟨_, rfl⟩)))))
    rw [f5, val_reg, f6, f7, g3] at this
    simpa only [List.append_assoc, List.cons_append, List.nil_append] using this
  · intro hw
    have e3 : run e 0 ([.mov z .r8 (.reg .rbx), .stMem z, .ldL z .rax 0, .mov z .r8 (.reg .rbx)]) h2 = .fault h.g := by
      hexec [c2, hw, b2, v2, g2, Bool.false_eq_true]
    have := (run_append (op .rbx (.imm v) ++ (([.mov z .r8 (.reg .rbx), .stMem z, .ldL z .rax 0, .mov z .r8 (.reg .rbx)]) ++
      setFlagsArith sum z (.reg .rax) true (.imm v))) e1).trans ((run_append _ e2).trans (run_append_fault _ e3))
    simpa only [List.append_assoc, List.cons_append, List.nil_append] using this

theorem immToMemFlags_nw {z : Sz} (hz : z ≠ .q) {e : Env} {h : St} (hc : h.r .rcx = e.ctx) {op : Reg → Src → List I} {val}
    (ho : OpRuns e z op val) (sum : Bool) (adr : Ea) (v : BitVec 64) (hok : e.ok adr z.bytes false = true) :
    Ends e (immToMemFlags op sum z false adr v) h
      { h.g with fl := arith sum h.g.fl (BitVec.ofNat z.bits (load h.g.mem adr z.bytes)) (v.setWidth z.bits) (val h.g.fl (BitVec.ofNat z.bits (load h.g.mem adr z.bytes)) (v.setWidth z.bits)) } := by
  unfold immToMemFlags
  rw [if_neg (by decide)]
  obtain ⟨h1, e1, g1, c1, f1, f2⟩ : ∃ h1, run e 0 [.ea adr, .ldMem z, .mov z .rbx (.reg .rax)] h = .next 0 h1 ∧ h1.g = h.g ∧
      h1.r .rcx = e.ctx ∧ rd h1 z .rbx = BitVec.ofNat z.bits (load h.g.mem adr z.bytes) ∧ rd h1 z .rax = BitVec.ofNat z.bits (load h.g.mem adr z.bytes) := by
    hexec [hc, hok]
    refine ⟨_, rfl, ?_⟩
    hexec [hc, hok]
    simp
  obtain ⟨h2, e2, v2, r2, g2, l2⟩ := ho .rbx (.imm v) h1 (by simp [Dok]) c1
  have c2 : h2.r .rcx = e.ctx := (r2 _ (by decide) (by decide)).trans c1
  have a2 : rd h2 z .rax = BitVec.ofNat z.bits (load h.g.mem adr z.bytes) := (rd_op r2 z (by decide) (by decide)).trans f2
  rw [f1, val_imm, g1] at v2
  rw [g1] at g2
  obtain ⟨h3, e3, g3, c3, f5, f6⟩ : ∃ h3, run e 0 [.mov z .r8 (.reg .rbx)] h2 = .next 0 h3 ∧ h3.g = h.g ∧
      h3.r .rcx = e.ctx ∧ rd h3 z .r8 = val h.g.fl (BitVec.ofNat z.bits (load h.g.mem adr z.bytes)) (v.setWidth z.bits) ∧ rd h3 z .rax = BitVec.ofNat z.bits (load h.g.mem adr z.bytes) := by
    hexec [v2]
    refine ⟨_, rfl, ?_⟩
    hexec [c2, a2, g2]
    simp
  have := ends_append e1 (ends_append e2 (ends_append e3 (ends_arith hz sum c3 (a := .reg .rax) (isEax := true) (Or.inl ⟨rfl, rfl⟩) (b := .imm v) (Or.inr (Or.inr ⟨_, rfl⟩)))))
  rw [f5, val_reg, f6, val_imm, g3] at this
  simpa only [List.append_assoc, List.cons_append, List.nil_append] using this
end Verif.Emit
