import Verif.Lemmas.EmitT
namespace Verif.Emit
open Host Guest


theorem incDecFlags_run {z : Sz} (hz : z ≠ .q) (sum : Bool) {e : Env} {h : St} (hc : h.r .rcx = e.ctx) :
    Ends e (incDecFlags sum z) h
      { h.g with fl := Flags.keepCf (arith sum h.g.fl (rd h z .rbx) ((1#64).setWidth z.bits) (rd h z .r8)) (Flags.ldCf h.g.fl) } := by
  obtain ⟨h1, e1, g1, c1, r1, f1, f2⟩ : ∃ h1, run e 0 [.ldAux .r11, .alu .and .d .r11 (.imm 0x80000000#64)] h = .next 0 h1 ∧
      h1.g = h.g ∧ h1.r .rcx = e.ctx ∧ rd h1 .d .r11 = Flags.ldCf h.g.fl ∧ rd h1 z .rbx = rd h z .rbx ∧
      rd h1 z .r8 = rd h z .r8 := by
    hexec [hc]
    refine ⟨_, rfl, ?_⟩
    hexec [hc]
    exact ⟨trivial, trivial, rfl, trivial, trivial⟩
  obtain ⟨h2, e2, g2, c2, _, _, r2⟩ := flagsArith_run hz sum e h1 c1 (.reg .rbx) (.imm 1#64) false
    (Or.inr ⟨rfl, Or.inl rfl⟩) (Or.inr (Or.inr ⟨_, rfl⟩))
  have r11 : rd h2 .d .r11 = Flags.ldCf h.g.fl := (rd_eq_of_r .d r2).trans r1
  rw [val_reg, val_imm, f1, f2, g1] at g2
  refine ends_append (h1 := h2) (by rw [run_append _ e1]; exact e2) ?_
  unfold ldOf
  hexec [Ends, c2, r11, g2]
  refine ⟨_, rfl, ?_, ?_⟩
  · hexec [c2, r11, g2]
    rfl
  · hexec [c2]

theorem incDecReg_run {z : Sz} (hz : z ≠ .q) (sum : Bool) {e : Env} {h : St} (hc : h.r .rcx = e.ctx) (r : GReg) :
    Ends e (incDec sum z (.reg r)) h
      { wrG h.g z r ((if sum then Alu.add else Alu.sub).eval (rdG h.g z r) ((1#64).setWidth z.bits)) with
        fl := Flags.keepCf (arith sum h.g.fl (rdG h.g z r) ((1#64).setWidth z.bits)
          ((if sum then Alu.add else Alu.sub).eval (rdG h.g z r) ((1#64).setWidth z.bits))) (Flags.ldCf h.g.fl) } := by
  generalize ho : (if sum then Alu.add else Alu.sub) = o
  unfold incDec
  rw [ho]
  obtain ⟨h1, e1, g1, c1, f1, f2⟩ : ∃ h1, run e 0 [.ldG z .rbx r, .mov z .r8 (.reg .rbx), .alu o z .r8 (.imm 1#64),
      .stG z r .r8] h = .next 0 h1 ∧ h1.g = wrG h.g z r (o.eval (rdG h.g z r) ((1#64).setWidth z.bits)) ∧
      h1.r .rcx = e.ctx ∧ rd h1 z .rbx = rdG h.g z r ∧
      rd h1 z .r8 = o.eval (rdG h.g z r) ((1#64).setWidth z.bits) := by
    hexec [hc]
    refine ⟨_, rfl, ?_⟩
    hexec [hc]
    simp
  refine ends_append e1 ?_
  have := incDecFlags_run hz sum c1
  rw [f1, f2, g1] at this
  exact this

theorem incDecMem_run {z : Sz} (hz : z ≠ .q) (sum : Bool) {e : Env} {h : St} (hc : h.r .rcx = e.ctx) (adr : Ea)
    (hok : e.ok adr z.bytes false = true) :
    (e.ok adr z.bytes true = true → Ends e (incDec sum z (.mem adr)) h
      { h.g with
        mem := store h.g.mem adr z.bytes ((if sum then Alu.add else Alu.sub).eval
          (BitVec.ofNat z.bits (load h.g.mem adr z.bytes)) ((1#64).setWidth z.bits)).toNat
        fl := Flags.keepCf (arith sum h.g.fl (BitVec.ofNat z.bits (load h.g.mem adr z.bytes)) ((1#64).setWidth z.bits)
          ((if sum then Alu.add else Alu.sub).eval (BitVec.ofNat z.bits (load h.g.mem adr z.bytes))
            ((1#64).setWidth z.bits))) (Flags.ldCf h.g.fl) }) ∧
    (e.ok adr z.bytes true = false → run e 0 (incDec sum z (.mem adr)) h = .fault h.g) := by
  generalize ho : (if sum then Alu.add else Alu.sub) = o
  unfold incDec
  rw [ho]
  constructor
  · intro hw
    obtain ⟨h1, e1, g1, c1, f1, f2⟩ : ∃ h1, run e 0 [.ea adr, .mov .d .rbx (.reg .rdx), .ldMem z, .mov .d .rdx (.reg .rbx), .mov z .r8 (.reg .rax),
        .mov z .rbx (.reg .rax), .alu o z .r8 (.imm 1#64), .stL z 0 .r8, .stMem z,
        .ldL z .r8 0] h = .next 0 h1 ∧ h1.g = { h.g with mem := store h.g.mem adr z.bytes (o.eval
          (BitVec.ofNat z.bits (load h.g.mem adr z.bytes)) ((1#64).setWidth z.bits)).toNat } ∧
        h1.r .rcx = e.ctx ∧ rd h1 z .rbx = BitVec.ofNat z.bits (load h.g.mem adr z.bytes) ∧
        rd h1 z .r8 = o.eval (BitVec.ofNat z.bits (load h.g.mem adr z.bytes)) ((1#64).setWidth z.bits) := by
      hexec [hc, hok, hw]
      refine ⟨_, rfl, ?_⟩
      hexec [hc, hok, hw]
      simp
    refine ends_append e1 ?_
    have := incDecFlags_run hz sum c1
    rw [f1, f2, g1] at this
    exact this
  · intro hw
    hexec [hc, hok, hw, Bool.false_eq_true]

theorem negReg_run {z : Sz} (hz : z ≠ .q) {e : Env} {h : St} (hc : h.r .rcx = e.ctx) (r : GReg) :
    Ends e (neg z (.reg r)) h { wrG h.g z r (-rdG h.g z r) with
      fl := Flags.setFlagsSub h.g.fl ((0#64).setWidth z.bits) (rdG h.g z r) (-rdG h.g z r) } := by
  unfold neg
  obtain ⟨h1, e1, g1, c1, f1, f2⟩ : ∃ h1, run e 0 [.ldG z .rbx r, .mov z .r8 (.reg .rbx), .neg z .r8, .stG z r .r8] h = .next 0 h1 ∧
      h1.g = wrG h.g z r (-rdG h.g z r) ∧ h1.r .rcx = e.ctx ∧ rd h1 z .rbx = rdG h.g z r ∧ rd h1 z .r8 = -rdG h.g z r := by
    hexec [hc]
    refine ⟨_, rfl, ?_⟩
    hexec [hc]
    simp
  refine ends_append e1 ?_
  have := ends_arith hz false c1 (a := .imm 0#64) (isEax := false) (Or.inr ⟨rfl, Or.inr ⟨_, rfl⟩⟩) (b := .reg .rbx) (Or.inl rfl)
  rw [val_reg, val_imm, f1, f2, g1] at this
  exact this

theorem negMem_run {z : Sz} (hz : z ≠ .q) {e : Env} {h : St} (hc : h.r .rcx = e.ctx) (adr : Ea)
    (hok : e.ok adr z.bytes false = true) :
    (e.ok adr z.bytes true = true → Ends e (neg z (.mem adr)) h
      { h.g with
        mem := store h.g.mem adr z.bytes (-(BitVec.ofNat z.bits (load h.g.mem adr z.bytes))).toNat
        fl := Flags.setFlagsSub h.g.fl ((0#64).setWidth z.bits) (BitVec.ofNat z.bits (load h.g.mem adr z.bytes))
          (-(BitVec.ofNat z.bits (load h.g.mem adr z.bytes))) }) ∧
    (e.ok adr z.bytes true = false → run e 0 (neg z (.mem adr)) h = .fault h.g) := by
  unfold neg
  constructor
  · intro hw
    obtain ⟨h1, e1, g1, c1, f1, f2⟩ : ∃ h1, run e 0 [.ea adr, .mov .d .rbx (.reg .rdx), .ldMem z, .mov .d .rdx (.reg .rbx), .mov z .rbx (.reg .rax),
        .neg z .rax, .mov z .r8 (.reg .rax), .stL z 0 .rax, .stMem z, .ldL z .r8 0] h = .next 0 h1 ∧
        h1.g = { h.g with mem := store h.g.mem adr z.bytes (-(BitVec.ofNat z.bits (load h.g.mem adr z.bytes))).toNat } ∧
        h1.r .rcx = e.ctx ∧ rd h1 z .rbx = BitVec.ofNat z.bits (load h.g.mem adr z.bytes) ∧
        rd h1 z .r8 = -(BitVec.ofNat z.bits (load h.g.mem adr z.bytes)) := by
      hexec [hc, hok, hw]
      refine ⟨_, rfl, ?_⟩
      hexec [hc, hok, hw]
      simp only [and_self]
    refine ends_append e1 ?_
    have := ends_arith hz false c1 (a := .imm 0#64) (isEax := false) (Or.inr ⟨rfl, Or.inr ⟨_, rfl⟩⟩) (b := .reg .rbx) (Or.inl rfl)
    rw [val_reg, val_imm, f1, f2, g1] at this
    exact this
  · intro hw
    hexec [hc, hok, hw, Bool.false_eq_true]

theorem notReg_run {z : Sz} {e : Env} {h : St} (hc : h.r .rcx = e.ctx) (r : GReg) :
    Ends e (not z (.reg r)) h (wrG h.g z r (~~~rdG h.g z r)) := by
  unfold not
  hexec [Ends, hc]
  refine ⟨_, rfl, ?_⟩
  hexec [hc]
  simp

theorem notMem_run {z : Sz} {e : Env} {h : St} (hc : h.r .rcx = e.ctx) (adr : Ea)
    (hok : e.ok adr z.bytes false = true) :
    (e.ok adr z.bytes true = true → Ends e (not z (.mem adr)) h
      { h.g with mem := store h.g.mem adr z.bytes (~~~(BitVec.ofNat z.bits (load h.g.mem adr z.bytes))).toNat }) ∧
    (e.ok adr z.bytes true = false → run e 0 (not z (.mem adr)) h = .fault h.g) := by
  unfold not
  constructor
  · intro hw
    hexec [Ends, hc, hok, hw]
    refine ⟨_, rfl, ?_⟩
    hexec [hc, hok, hw]
    simp only [and_self]
  · intro hw
    hexec [hc, hok, hw, Bool.false_eq_true]

theorem xaddReg_run {z : Sz} (hz : z ≠ .q) {e : Env} {h : St} (hc : h.r .rcx = e.ctx) (src r : GReg) :
    Ends e (xadd z src (.reg r)) h { wrG (wrG h.g z src (rdG h.g z r)) z r (rdG h.g z r + rdG h.g z src) with
      fl := Flags.setFlagsSum h.g.fl (rdG h.g z r) (rdG h.g z src) (rdG h.g z r + rdG h.g z src) } := by
  unfold xadd
  obtain ⟨h1, e1, g1, c1, f1, f2, f3⟩ : ∃ h1, run e 0 [.ldG z .rbx src, .ldG z .rax r, .stG z src .rax, .mov z .r8 (.reg .rax), .alu .add z .r8 (.reg .rbx),
      .stG z r .r8] h = .next 0 h1 ∧
      h1.g = wrG (wrG h.g z src (rdG h.g z r)) z r (rdG h.g z r + rdG h.g z src) ∧ h1.r .rcx = e.ctx ∧
      rd h1 z .rbx = rdG h.g z src ∧ rd h1 z .r8 = rdG h.g z r + rdG h.g z src ∧ rd h1 z .rax = rdG h.g z r := by
    hexec [hc]
    refine ⟨_, rfl, ?_⟩
    hexec [hc]
    simp only [and_self]
  refine ends_append e1 ?_
  have := ends_arith hz true c1 (a := .reg .rax) (isEax := true) (Or.inl ⟨rfl, rfl⟩) (b := .reg .rbx) (Or.inl rfl)
  rw [val_reg, val_reg, f1, f2, f3, g1] at this
  exact this

theorem xaddMem_run {z : Sz} (hz : z ≠ .q) {e : Env} {h : St} (hc : h.r .rcx = e.ctx) (src : GReg) (adr : Ea)
    (hok : e.ok adr z.bytes false = true) :
    (e.ok adr z.bytes true = true → Ends e (xadd z src (.mem adr)) h
      { wrG { h.g with mem := store h.g.mem adr z.bytes (BitVec.ofNat z.bits (load h.g.mem adr z.bytes) + rdG h.g z src).toNat }
          z src (BitVec.ofNat z.bits (load h.g.mem adr z.bytes)) with
        fl := Flags.setFlagsSum h.g.fl (BitVec.ofNat z.bits (load h.g.mem adr z.bytes)) (rdG h.g z src)
          (BitVec.ofNat z.bits (load h.g.mem adr z.bytes) + rdG h.g z src) }) ∧
    (e.ok adr z.bytes true = false → run e 0 (xadd z src (.mem adr)) h = .fault h.g) := by
  unfold xadd
  constructor
  · intro hw
    obtain ⟨h1, e1, g1, c1, f1, f2, f3⟩ : ∃ h1, run e 0 [.ldG z .rbx src, .ea adr, .stL .d 0 .rdx, .ldMem z, .mov z .r8 (.reg .rax), .alu .add z .r8 (.reg .rbx),
        .ldL .d .rdx 0, .stL z 0 .rax, .stL z 1 .r8, .stMem z, .ldL z .rax 0, .ldL z .r8 1, .stG z src .rax] h = .next 0 h1 ∧
        h1.g = wrG { h.g with mem := store h.g.mem adr z.bytes (BitVec.ofNat z.bits (load h.g.mem adr z.bytes) + rdG h.g z src).toNat }
          z src (BitVec.ofNat z.bits (load h.g.mem adr z.bytes)) ∧
        h1.r .rcx = e.ctx ∧ rd h1 z .rbx = rdG h.g z src ∧
        rd h1 z .r8 = BitVec.ofNat z.bits (load h.g.mem adr z.bytes) + rdG h.g z src ∧
        rd h1 z .rax = BitVec.ofNat z.bits (load h.g.mem adr z.bytes) := by
      hexec [hc, hok, hw]
      refine ⟨_, rfl, ?_⟩
      hexec [hc, hok, hw]
      simp only [and_self]
    refine ends_append e1 ?_
    have := ends_arith hz true c1 (a := .reg .rax) (isEax := true) (Or.inl ⟨rfl, rfl⟩) (b := .reg .rbx) (Or.inl rfl)
    rw [val_reg, val_reg, f1, f2, f3, g1] at this
    exact this
  · intro hw
    hexec [hc, hok, hw, Bool.false_eq_true]

theorem xchgReg_run {z : Sz} {e : Env} {h : St} (hc : h.r .rcx = e.ctx) (src r : GReg) :
    Ends e (xchg z src (.reg r)) h (wrG (wrG h.g z src (rdG h.g z r)) z r (rdG h.g z src)) := by
  unfold xchg
  hexec [Ends, hc]
  refine ⟨_, rfl, ?_⟩
  hexec [hc]
  simp only [and_self]

theorem xchgAcc_run {z : Sz} {e : Env} {h : St} (hc : h.r .rcx = e.ctx) (r : GReg) :
    Ends e (xchgAcc z r) h (wrG (wrG h.g z acc (rdG h.g z r)) z r (rdG h.g z acc)) := by
  unfold xchgAcc
  hexec [Ends, hc]
  refine ⟨_, rfl, ?_⟩
  hexec [hc]
  simp only [and_self]

theorem xchgMem_run {z : Sz} {e : Env} {h : St} (hc : h.r .rcx = e.ctx) (src : GReg) (adr : Ea)
    (hok : e.ok adr z.bytes false = true) :
    (e.ok adr z.bytes true = true → Ends e (xchg z src (.mem adr)) h
      { wrG h.g z src (BitVec.ofNat z.bits (load h.g.mem adr z.bytes)) with
        mem := store h.g.mem adr z.bytes (rdG h.g z src).toNat }) ∧
    (e.ok adr z.bytes true = false → run e 0 (xchg z src (.mem adr)) h =
      .fault (wrG h.g z src (BitVec.ofNat z.bits (load h.g.mem adr z.bytes)))) := by
  unfold xchg
  constructor
  · intro hw
    hexec [Ends, hc, hok, hw]
    refine ⟨_, rfl, ?_⟩
    hexec [hc, hok, hw]
    exact ⟨rfl, trivial⟩
  · intro hw
    hexec [hc, hok, hw, Bool.false_eq_true]

theorem cmpxchgReg_run {z : Sz} (hz : z ≠ .q) {e : Env} {h : St} (hc : h.r .rcx = e.ctx) (src r : GReg) :
    Ends e (cmpxchg z src (.reg r)) h
      { (if rdG h.g z r - rdG h.g z acc = 0 then wrG h.g z r (rdG h.g z src) else wrG h.g z acc (rdG h.g z r)) with
        fl := Flags.setFlagsSub h.g.fl (rdG h.g z r) (rdG h.g z acc) (rdG h.g z r - rdG h.g z acc) } := by
  unfold cmpxchg
  obtain ⟨h1, e1, g1, c1, f1, f2, f3⟩ : ∃ h1, run e 0 [.ldG z .rbx acc, .ldG z .rax r, .mov z .r8 (.reg .rax), .alu .sub z .r8 (.reg .rbx), .jeq 2,
      .stG z acc .rax, .jmp 2, .ldG z .rdx src, .stG z r .rdx] h = .next 0 h1 ∧
      h1.g = (if rdG h.g z r - rdG h.g z acc = 0 then wrG h.g z r (rdG h.g z src) else wrG h.g z acc (rdG h.g z r)) ∧
      h1.r .rcx = e.ctx ∧
      rd h1 z .rbx = rdG h.g z acc ∧ rd h1 z .r8 = rdG h.g z r - rdG h.g z acc ∧ rd h1 z .rax = rdG h.g z r := by
    by_cases hd : rdG h.g z r - rdG h.g z acc = 0
    · hexec [hc, hd, BEq.rfl]
      refine ⟨_, rfl, ?_⟩
      hexec [hc, hd]
      simp only [and_self]
    · hexec [hc, hd, beq_iff_eq]
      refine ⟨_, rfl, ?_⟩
      hexec [hc, hd]
      simp only [and_self]
  refine ends_append e1 ?_
  have := ends_arith hz false c1 (a := .reg .rax) (isEax := true) (Or.inl ⟨rfl, rfl⟩) (b := .reg .rbx) (Or.inl rfl)
  rw [val_reg, val_reg, f1, f2, f3, g1] at this
  by_cases hd : rdG h.g z r - rdG h.g z acc = 0
  · rw [if_pos hd] at this ⊢
    exact this
  · rw [if_neg hd] at this ⊢
    exact this

theorem cmpxchgMem_run {z : Sz} (hz : z ≠ .q) {e : Env} {h : St} (hc : h.r .rcx = e.ctx) (src : GReg) (adr : Ea)
    (hok : e.ok adr z.bytes false = true) {v : BitVec z.bits} (hv : BitVec.ofNat z.bits (load h.g.mem adr z.bytes) = v) :
    (v - rdG h.g z acc ≠ 0 → Ends e (cmpxchg z src (.mem adr)) h
      { wrG h.g z acc v with fl := Flags.setFlagsSub h.g.fl v (rdG h.g z acc) (v - rdG h.g z acc) }) ∧
    (v - rdG h.g z acc = 0 → e.ok adr z.bytes true = true → Ends e (cmpxchg z src (.mem adr)) h
      { h.g with
        mem := store h.g.mem adr z.bytes (rdG h.g z src).toNat
        fl := Flags.setFlagsSub h.g.fl v (rdG h.g z acc) (v - rdG h.g z acc) }) ∧
    (v - rdG h.g z acc = 0 → e.ok adr z.bytes true = false → run e 0 (cmpxchg z src (.mem adr)) h = .fault h.g) := by
  unfold cmpxchg
  have key : ∀ (h1 : St) (g : G), run e 0 [.ldG z .rbx acc, .ea adr, .stL .d 0 .rdx, .ldMem z, .ldL .d .rdx 0, .mov z .r10 (.reg .rax),
      .alu .sub z .r10 (.reg .rbx), .stL z 0 .rax, .stL z 1 .r10, .jeq 2, .stG z acc .rax, .jmp 2,
      .ldG z .r8 src, .stMem z, .ldL z .rax 0, .ldL z .r8 1] h = .next 0 h1 → h1.g = g → h1.r .rcx = e.ctx →
      rd h1 z .rbx = rdG h.g z acc → rd h1 z .r8 = v - rdG h.g z acc → rd h1 z .rax = v →
      Ends e ([.ldG z .rbx acc, .ea adr, .stL .d 0 .rdx, .ldMem z, .ldL .d .rdx 0, .mov z .r10 (.reg .rax),
      .alu .sub z .r10 (.reg .rbx), .stL z 0 .rax, .stL z 1 .r10, .jeq 2, .stG z acc .rax, .jmp 2,
      .ldG z .r8 src, .stMem z, .ldL z .rax 0, .ldL z .r8 1] ++ setFlagsSub z (.reg .rax) true (.reg .rbx)) h
      { g with fl := Flags.setFlagsSub g.fl v (rdG h.g z acc) (v - rdG h.g z acc) } := by
    intro h1 g e1 g1 c1 f1 f2 f3
    refine ends_append e1 ?_
    have := ends_arith hz false c1 (a := .reg .rax) (isEax := true) (Or.inl ⟨rfl, rfl⟩) (b := .reg .rbx) (Or.inl rfl)
    rw [val_reg, val_reg, f1, f2, f3, g1] at this
    exact this
  refine ⟨?_, ?_, ?_⟩
  · intro hd
    obtain ⟨h1, e1, g1, c1, f1, f2, f3⟩ : ∃ h1, run e 0 [.ldG z .rbx acc, .ea adr, .stL .d 0 .rdx, .ldMem z, .ldL .d .rdx 0, .mov z .r10 (.reg .rax),
        .alu .sub z .r10 (.reg .rbx), .stL z 0 .rax, .stL z 1 .r10, .jeq 2, .stG z acc .rax, .jmp 2,
        .ldG z .r8 src, .stMem z, .ldL z .rax 0, .ldL z .r8 1] h = .next 0 h1 ∧ h1.g = wrG h.g z acc v ∧
        h1.r .rcx = e.ctx ∧ rd h1 z .rbx = rdG h.g z acc ∧ rd h1 z .r8 = v - rdG h.g z acc ∧ rd h1 z .rax = v := by
      hexec [hc, hok, hv, hd, beq_iff_eq]
      refine ⟨_, rfl, ?_⟩
      hexec [hc, hok, hv, hd]
      simp only [and_self]
    exact key h1 _ e1 g1 c1 f1 f2 f3
  · intro hd hw
    obtain ⟨h1, e1, g1, c1, f1, f2, f3⟩ : ∃ h1, run e 0 [.ldG z .rbx acc, .ea adr, .stL .d 0 .rdx, .ldMem z, .ldL .d .rdx 0, .mov z .r10 (.reg .rax),
        .alu .sub z .r10 (.reg .rbx), .stL z 0 .rax, .stL z 1 .r10, .jeq 2, .stG z acc .rax, .jmp 2,
        .ldG z .r8 src, .stMem z, .ldL z .rax 0, .ldL z .r8 1] h = .next 0 h1 ∧
        h1.g = { h.g with mem := store h.g.mem adr z.bytes (rdG h.g z src).toNat } ∧
        h1.r .rcx = e.ctx ∧ rd h1 z .rbx = rdG h.g z acc ∧ rd h1 z .r8 = v - rdG h.g z acc ∧ rd h1 z .rax = v := by
      hexec [hc, hok, hv, hd, hw, BEq.rfl]
      refine ⟨_, rfl, ?_⟩
      hexec [hc, hok, hv, hd]
      simp only [and_self]
    exact key h1 _ e1 g1 c1 f1 f2 f3
  · intro hd hw
    hexec [hc, hok, hv, hd, hw, BEq.rfl, Bool.false_eq_true]

/-- EDX:EAX, ECX:EBX. -/
def pair (hi lo : BitVec 32) : BitVec 64 := (hi.setWidth 64 <<< 32) ||| lo.setWidth 64

theorem rdG_d (g : G) (i : Fin 8) : rdG g .d ⟨i, false⟩ = g.gpr i := by
  unfold rdG
  rw [if_neg (by simp)]
  exact BitVec.setWidth_eq _

theorem rd_d_q (h : St) (r : Reg) (v : BitVec 32) : rd (wr h .d r v) .q r = v.setWidth 64 := rd_wr_d h .q r v
theorem rd_q_d (h : St) (r : Reg) (v : BitVec 64) : rd (wr h .q r v) .d r = v.setWidth 32 := by
  unfold rd wr St.set put
  simp only [if_true]


theorem seg1 {e : Env} {h : St} (hc : h.r .rcx = e.ctx) (adr : Ea) (s : Sz)
    (hok : e.ok adr s.bytes false = true) :
    ∃ h1, run e 0 [.ea adr, .stL .d 0 .rdx, .ldMem s, .ldG .d .rdx ⟨2, false⟩, .ldG .d .rbx ⟨0, false⟩, .sh .shl s .rdx 32,
   .alu .or s .rdx (.reg .rbx), .cmp s .rax (.reg .rdx), .ldL .d .rdx 0] h = .next 0 h1 ∧ h1.g = h.g ∧ h1.r .rcx = e.ctx ∧
   h1.zf = (BitVec.ofNat s.bits (load h.g.mem adr s.bytes) == (((h.g.gpr 2).setWidth s.bits <<< 32) ||| (h.g.gpr 0).setWidth s.bits)) ∧
   rd h1 s .rax = BitVec.ofNat s.bits (load h.g.mem adr s.bytes) ∧ rd h1 .d .rdx = adr := by
  hexec [hc, hok, rdG_d, rd_wr_d]
  refine ⟨_, rfl, ?_⟩
  hexec [hc, hok, rdG_d, rd_wr_d]
  simp

/-- Not equal: the rest of the code. -/
theorem seg2 {e : Env} {h : St} (hc : h.r .rcx = e.ctx) {adr : BitVec 32} {s : Sz} {v : BitVec s.bits}
    (hz : h.zf = false) (ha : rd h .d .rdx = adr) (hv : rd h s .rax = v) (hw : e.ok adr s.bytes true = true) (tl : List I) :
    ∃ h1, run e 0 ([.jeq 10, .mov s .rbx (.reg .rax), .mov s .r8 (.reg .rax), .stMem s] ++ tl) h = run e 0 tl h1 ∧
      h1.g = { h.g with mem := store h.g.mem adr s.bytes v.toNat } ∧ h1.r .rcx = e.ctx ∧ rd h1 s .rbx = v := by
  hexec [hc, hz, ha, hv, hw, Bool.false_eq_true]
  refine ⟨_, rfl, ?_⟩
  hexec [hc, hz, ha, hv, hw]
  simp

theorem run_all {e : Env} {n : Nat} {l : List I} (hl : l.length = n) (h : St) : run e n l h = .next 0 h := by
  induction l generalizing n with
  | nil => subst hl; rfl
  | cons i l ih => subst hl; exact ih rfl

theorem seg3 {e : Env} {h : St} (hc : h.r .rcx = e.ctx) {s : Sz} {v : BitVec s.bits}
    (hb : rd h s .rbx = v) (lo hi : BitVec 32) (hlo : rd h .d .rbx = lo)
    (hhi : ∀ h' : St, rd (wr h' s .rbx (v >>> 32)) .d .rbx = hi) (tl : List I) (hl : tl.length = 20) :
    Ends e ([.stG .d ⟨0, false⟩ .rbx, .sh .shr s .rbx 32,
   .stG .d ⟨2, false⟩ .rbx, .ldRes .rdx, .alu .or .d .rdx (.imm 0x100#64), .stRes (.reg .rdx), .jmp 20] ++ tl) h
     { wrG (wrG h.g .d ⟨0, false⟩ lo) .d ⟨2, false⟩ hi with fl := Flags.clearZf h.g.fl } := by
  hexec [Ends, hc, hb, hlo, hhi]
  rw [run_all hl]
  refine ⟨_, rfl, ?_, ?_⟩
  · hexec [hlo, hhi]
    rfl
  · hexec [hc]

theorem zfAux (r a : BitVec 32) : (((r <<< 8 ^^^ a) &&& 0xFF00#32) ||| (a &&& 0xFFFF00FE#32)) ||| ((r >>> 31) ^^^ (a &&& 1#32)) =
    (a &&& 0xFFFF00FE#32) ||| (((r >>> 31) ^^^ (a &&& 1#32)) ||| ((r <<< 8 ^^^ a) &&& 0xFF00#32)) := by
  ac_rfl

theorem seg4 {e : Env} {h : St} (hc : h.r .rcx = e.ctx) {adr : BitVec 32} {s : Sz}
    (ha : rd h .d .rdx = adr) (hw : e.ok adr s.bytes true = true) :
    Ends e ([.ldG .d .r8 ⟨1, false⟩, .ldG .d .rbx ⟨3, false⟩, .sh .shl s .r8 32, .alu .or s .r8 (.reg .rbx), .stMem s,
   .ldRes .r8, .ldAux .r9, .mov .d .rax (.reg .r8), .mov .d .rdx (.reg .r9), .sh .shl .d .rax 8,
   .alu .xor .d .rax (.reg .rdx), .alu .and .d .rdx (.imm 0xFFFF00FE#64), .alu .and .d .rax (.imm 0xFF00#64),
   .alu .or .d .rax (.reg .rdx)] ++ ldSf .r8 .r9 ++
  [.alu .or .d .rax (.reg .r8), .stRes (.imm 0#64), .stAux (.reg .rax)]) h
     { h.g with mem := store h.g.mem adr s.bytes (((h.g.gpr 1).setWidth s.bits <<< 32) ||| (h.g.gpr 3).setWidth s.bits).toNat, fl := Flags.setZf h.g.fl } := by
  unfold ldSf
  hexec [Ends, hc, rdG_d, rd_wr_d, ha, hw]
  refine ⟨_, rfl, ?_, ?_⟩
  · hexec []
    refine congrArg (fun x => ({ h.g with mem := store h.g.mem adr s.bytes (((h.g.gpr 1).setWidth s.bits <<< 32) ||| (h.g.gpr 3).setWidth s.bits).toNat, fl := x } : G)) (fl_ext rfl rfl ?_)
    exact zfAux _ _
  · hexec []

theorem seg2_fault {e : Env} {h : St} (hc : h.r .rcx = e.ctx) {adr : BitVec 32} {s : Sz}
    (hz : h.zf = false) (ha : rd h .d .rdx = adr) (hw : e.ok adr s.bytes true = false) (tl : List I) :
    run e 0 ([.jeq 10, .mov s .rbx (.reg .rax), .mov s .r8 (.reg .rax), .stMem s] ++ tl) h = .fault h.g := by
  hexec [hc, hz, ha, hw, Bool.false_eq_true]

theorem seg4_fault {e : Env} {h : St} (hc : h.r .rcx = e.ctx) {adr : BitVec 32} {s : Sz}
    (ha : rd h .d .rdx = adr) (hw : e.ok adr s.bytes true = false) (tl : List I) :
    run e 0 ([.ldG .d .r8 ⟨1, false⟩, .ldG .d .rbx ⟨3, false⟩, .sh .shl s .r8 32, .alu .or s .r8 (.reg .rbx), .stMem s] ++ tl) h =
     .fault h.g := by
  hexec [hc, ha, hw, Bool.false_eq_true]

/-- The branch when the values are equal. -/
def eqPart (s : Sz) : List I :=
  [.ldG .d .r8 ⟨1, false⟩, .ldG .d .rbx ⟨3, false⟩, .sh .shl s .r8 32, .alu .or s .r8 (.reg .rbx), .stMem s,
   .ldRes .r8, .ldAux .r9, .mov .d .rax (.reg .r8), .mov .d .rdx (.reg .r9), .sh .shl .d .rax 8,
   .alu .xor .d .rax (.reg .rdx), .alu .and .d .rdx (.imm 0xFFFF00FE#64), .alu .and .d .rax (.imm 0xFF00#64),
   .alu .or .d .rax (.reg .rdx)] ++ ldSf .r8 .r9 ++
  [.alu .or .d .rax (.reg .r8), .stRes (.imm 0#64), .stAux (.reg .rax)]

/-- The branch when they differ. -/
def nePart (s : Sz) : List I :=
  [.stG .d ⟨0, false⟩ .rbx, .sh .shr s .rbx 32,
   .stG .d ⟨2, false⟩ .rbx, .ldRes .rdx, .alu .or .d .rdx (.imm 0x100#64), .stRes (.reg .rdx), .jmp 20]

theorem cmpxchg8b_split (adr : Ea) : cmpxchg8b adr =
    [.ea adr, .stL .d 0 .rdx, .ldMem .q, .ldG .d .rdx ⟨2, false⟩, .ldG .d .rbx ⟨0, false⟩, .sh .shl .q .rdx 32,
   .alu .or .q .rdx (.reg .rbx), .cmp .q .rax (.reg .rdx), .ldL .d .rdx 0] ++
   ([.jeq 10, .mov .q .rbx (.reg .rax), .mov .q .r8 (.reg .rax), .stMem .q] ++ (nePart .q ++ eqPart .q)) := rfl

theorem cmpxchg8b_eq {e : Env} {h : St} (hz : h.zf = true) :
    run e 0 ([.jeq 10, .mov .q .rbx (.reg .rax), .mov .q .r8 (.reg .rax), .stMem .q] ++ (nePart .q ++ eqPart .q)) h =
    run e 0 (eqPart .q) h := by
  unfold nePart
  hexec [hz]

theorem cmpxchg8b_run {e : Env} {h : St} (hc : h.r .rcx = e.ctx) (adr : Ea)
    (hok : e.ok adr Sz.q.bytes false = true) {v : BitVec Sz.q.bits} (hv : BitVec.ofNat Sz.q.bits (load h.g.mem adr Sz.q.bytes) = v) :
    (v ≠ pair (h.g.gpr 2) (h.g.gpr 0) → e.ok adr Sz.q.bytes true = true → Ends e (cmpxchg8b adr) h
      { wrG (wrG { h.g with mem := store h.g.mem adr Sz.q.bytes v.toNat } .d ⟨0, false⟩ (v.setWidth 32)) .d ⟨2, false⟩ ((v >>> 32).setWidth 32) with
        fl := Flags.clearZf h.g.fl }) ∧
    (v = pair (h.g.gpr 2) (h.g.gpr 0) → e.ok adr Sz.q.bytes true = true → Ends e (cmpxchg8b adr) h
      { h.g with
        mem := store h.g.mem adr Sz.q.bytes (pair (h.g.gpr 1) (h.g.gpr 3)).toNat
        fl := Flags.setZf h.g.fl }) ∧
    (e.ok adr Sz.q.bytes true = false → run e 0 (cmpxchg8b adr) h = .fault h.g) := by
  obtain ⟨h1, e1, g1, c1, z1, a1, d1⟩ := seg1 hc adr .q hok
  rw [hv] at z1 a1
  have z1' : h1.zf = (v == pair (h.g.gpr 2) (h.g.gpr 0)) := z1
  rw [cmpxchg8b_split]
  refine ⟨?_, ?_, ?_⟩
  · intro hd hw
    have hz : h1.zf = false := by rw [z1']; exact beq_eq_false_iff_ne.2 hd
    refine ends_append e1 ?_
    obtain ⟨h2, e2, g2, c2, b2⟩ := seg2 c1 hz d1 a1 hw (nePart .q ++ eqPart .q)
    have e3 := seg3 (s := .q) c2 b2 (v.setWidth 32) ((v >>> 32).setWidth 32)
      (by rw [← b2]; unfold rd; exact (BitVec.setWidth_setWidth_of_le _ (by decide)).symm) (fun h' => rd_q_d h' _ _) (eqPart .q) rfl
    obtain ⟨h3, r3, g3, c3⟩ := e3
    refine ⟨h3, e2.trans r3, ?_, c3⟩
    rw [g3, g2, g1]
  · intro hd hw
    have hz : h1.zf = true := by rw [z1']; exact beq_iff_eq.2 hd
    refine ends_append e1 ?_
    obtain ⟨h3, r3, g3, c3⟩ := seg4 (s := .q) c1 d1 hw
    refine ⟨h3, (cmpxchg8b_eq hz).trans r3, ?_, c3⟩
    rw [g3, g1]
    rfl
  · intro hw
    rw [run_append _ e1]
    cases hz : h1.zf with
    | false => rw [seg2_fault c1 hz d1 hw, g1]
    | true =>
      rw [cmpxchg8b_eq hz]
      exact (seg4_fault (s := .q) c1 d1 hw _).trans (by rw [g1])
end Verif.Emit
