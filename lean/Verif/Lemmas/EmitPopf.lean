import Verif.Lemmas.EmitBcd
import Verif.Props.EmitMov
namespace Verif.Emit
open Host

/-- The 16 bit image of PUSHF under the virtual 8086 mode extensions: IF is VIF and IOPL is 3. -/
def vmeImage (w : BitVec 32) : BitVec 32 := (w &&& 0xFFFFCDFF#32) ||| ((w &&& 0x80000#32) >>> 10) ||| 0x3000#32
theorem pushfRest_run {e : Env} {h : Host.St} (hc : h.r .rcx = e.ctx) (z : Sz) (hz : z = .w ∨ z = .d) (vme : Bool) (hv : vme = true → z = .w) (a : BitVec 32) (ha : rd h .d .rax = a) :
    ∃ h', run e 0 (pushfRest z vme) h = .next 0 h' ∧ h'.r .rcx = e.ctx ∧ h'.g = h.g ∧
      rd h' z .r8 = (if z = .w then (if vme then vmeImage h.g.fl.eflags else h.g.fl.eflags) ||| a else (h.g.fl.eflags ||| a) &&& 0xFCFFFF#32).setWidth z.bits := by
  have ha' : rd h .w .rax = a.setWidth 16 := by
    rw [← ha]
    exact (BitVec.setWidth_setWidth_of_le _ (by decide)).symm
  unfold pushfRest
  rcases hz with rfl | rfl
  · cases vme
    · rw [if_pos rfl, if_pos rfl]
      hexec' [hc, ha', rd_wr_d]
      refine ⟨_, rfl, ?_⟩
      hexec' [hc, ha', rd_wr_d]
      refine ⟨trivial, trivial, ?_⟩
      exact BitVec.setWidth_or.symm
    · rw [if_pos rfl, if_pos rfl]
      hexec' [hc, ha', rd_wr_d]
      refine ⟨_, rfl, ?_⟩
      hexec' [hc, ha', rd_wr_d]
      refine ⟨trivial, trivial, ?_⟩
      generalize h.g.fl.eflags = w
      show (((w &&& 0x80000#32) >>> 10 ||| 0x3000#32 ||| (w &&& 0xFFFFCDFF#32) : BitVec 32).setWidth 16 : BitVec 16) ||| a.setWidth 16 = (vmeImage w ||| a).setWidth 16
      unfold vmeImage
      bits16
  · cases vme
    · rw [if_neg (by decide), if_neg (by decide)]
      hexec' [hc, ha, rd_wr_d]
      refine ⟨_, rfl, ?_⟩
      hexec' [hc, ha, rd_wr_d]
      refine ⟨trivial, trivial, ?_⟩
      rfl
    · exact absurd (hv rfl) (by decide)
theorem popf_run {e : Env} {h : Host.St} (hc : h.r .rcx = e.ctx) (s : Ss) (z : Sz) (hz : z = .w ∨ z = .d) (mask : BitVec 32) :
    match Stack.popVal e.ok (view e s h.g (h.g.gpr 4)) z.bytes with
    | some (v, p) => ∃ h', run e 0 (popf s z mask) h = .next 0 h' ∧ h'.r .rcx = e.ctx ∧
        h'.g = { setEsp h.g p with fl := Flags.popfUpdate h.g.fl (BitVec.ofNat 32 v) mask }
    | none => run e 0 (popf s z mask) h = .fault h.g := by
  have hp := popCode_run hc s z true
  cases hq : Stack.popVal e.ok (view e s h.g (h.g.gpr 4)) z.bytes with
  | none =>
    rw [hq] at hp
    exact run_append_fault _ hp
  | some q =>
    obtain ⟨v, p⟩ := q
    rw [hq] at hp
    obtain ⟨-, hv, h1, r1, g1, c1, -, v1, -⟩ := hp
    rw [if_pos rfl] at g1
    obtain ⟨h2, r2, c2, g2, b2⟩ : ∃ h2, run e 0 (if z = .d then [.mov .d .rbx (.reg .r8)] else [.movzx .w .rbx .r8]) h1 = .next 0 h2 ∧ h2.r .rcx = e.ctx ∧ h2.g = h1.g ∧
        rd h2 .d .rbx = BitVec.ofNat 32 v := by
      rcases hz with rfl | rfl
      · rw [if_neg (by decide)]
        hexec' [c1, v1, rd_wr_d]
        refine ⟨_, rfl, ?_⟩
        hexec' [c1, v1, rd_wr_d]
        refine ⟨trivial, trivial, ?_⟩
        apply BitVec.eq_of_toNat_eq
        rw [BitVec.toNat_setWidth, BitVec.toNat_ofNat, BitVec.toNat_ofNat]
        rw [Nat.mod_eq_of_lt hv]
      · rw [if_pos rfl]
        hexec' [c1, v1, rd_wr_d]
        refine ⟨_, rfl, ?_⟩
        hexec' [c1, v1, rd_wr_d]
        exact ⟨trivial, trivial, trivial⟩
    obtain ⟨h3, r3, c3, g3⟩ := popfEnd_run c2 mask _ b2
    refine ⟨h3, (run_append _ r1).trans ((run_append _ r2).trans r3), c3, ?_⟩
    rw [g3, g2, g1]
    rfl

/-- The condition of #GP that the code for POPF with the mode extensions tests: `w` is EFLAGS and `v` the popped word. -/
def vmeGp (w v : BitVec 32) : Prop := (w ||| v) &&& 0x100200#32 = 0x100200#32 ∨ v &&& 0x100#32 ≠ 0#32
instance (w v : BitVec 32) : Decidable (vmeGp w v) := by unfold vmeGp; infer_instance

theorem testJ_run {e : Env} {h : Host.St} (v : BitVec 32) (hv : rd h .d .rdx = v) :
    ∃ h', run e 0 [.testI .d .rdx 0x100#64, .jne 1, .jmp 1] h = .next (if v &&& 0x100#32 = 0#32 then 1 else 0) h' ∧ Kept h h' := by
  rw [run_step]
  simp only [step]
  rw [hv]
  rw [run_step]
  simp only [step]
  by_cases hx : v &&& 0x100#32 = 0#32
  · rw [if_pos hx]
    have : (v &&& BitVec.setWidth Sz.d.bits 0x100#64 == 0) = true := by
      show (v &&& 0x100#32 == 0#32) = true
      rw [hx]; rfl
    rw [this]
    exact ⟨_, rfl, rfl, rfl, rfl⟩
  · rw [if_neg hx]
    have : (v &&& BitVec.setWidth Sz.d.bits 0x100#64 == 0) = false := by
      show (v &&& 0x100#32 == 0#32) = false
      simpa using hx
    rw [this]
    exact ⟨_, rfl, rfl, rfl, rfl⟩

theorem vmeCheck_run {e : Env} {h : Host.St} (hc : h.r .rcx = e.ctx) (v : BitVec 16) (h8 : rd h .w .r8 = v) :
    ∃ h', run e 0 [.ldEfl .rax, .movzx .w .rdx .r8, .mov .d .r9 (.reg .rax), .alu .or .d .rax (.reg .rdx),
        .alu .and .d .rax (.imm 0x100200#64), .cmp .d .rax (.imm 0x100200#64), .jeq 3, .testI .d .rdx 0x100#64, .jne 1, .jmp 1] h =
        .next (if vmeGp h.g.fl.eflags (v.setWidth 32) then 0 else 1) h' ∧ h'.r .rcx = e.ctx ∧ h'.g = h.g ∧ h'.r .rbx = h.r .rbx ∧
      rd h' .d .rdx = v.setWidth 32 ∧ rd h' .d .r9 = h.g.fl.eflags := by
  obtain ⟨h1, r1, c1, g1, b1, d1, n1, a1⟩ : ∃ h1, run e 0 [.ldEfl .rax, .movzx .w .rdx .r8, .mov .d .r9 (.reg .rax), .alu .or .d .rax (.reg .rdx),
        .alu .and .d .rax (.imm 0x100200#64)] h = .next 0 h1 ∧ h1.r .rcx = e.ctx ∧ h1.g = h.g ∧ h1.r .rbx = h.r .rbx ∧
      rd h1 .d .rdx = v.setWidth 32 ∧ rd h1 .d .r9 = h.g.fl.eflags ∧ rd h1 .d .rax = (h.g.fl.eflags ||| v.setWidth 32) &&& 0x100200#32 := by
    hexec' [hc, h8, rd_wr_d]
    refine ⟨_, rfl, ?_⟩
    hexec' [hc, h8, rd_wr_d]
    exact ⟨trivial, trivial, trivial, trivial, trivial, rfl⟩
  obtain ⟨h2, r2, k2⟩ := cmpJeq_run (e := e) .d .rax (.imm 0x100200#64) 3 _ _ a1 (show (Src.imm 0x100200#64).val h1 .d = 0x100200#32 from rfl)
  have d2 := (k2.rd .d .rdx).trans d1
  have hcode : ([.ldEfl .rax, .movzx .w .rdx .r8, .mov .d .r9 (.reg .rax), .alu .or .d .rax (.reg .rdx),
        .alu .and .d .rax (.imm 0x100200#64), .cmp .d .rax (.imm 0x100200#64), .jeq 3, .testI .d .rdx 0x100#64, .jne 1, .jmp 1] : List I) =
      [.ldEfl .rax, .movzx .w .rdx .r8, .mov .d .r9 (.reg .rax), .alu .or .d .rax (.reg .rdx), .alu .and .d .rax (.imm 0x100200#64)] ++
      ([.cmp .d .rax (.imm 0x100200#64), .jeq 3] ++ [.testI .d .rdx 0x100#64, .jne 1, .jmp 1]) := rfl
  rw [hcode, run_append _ r1, run_append _ r2]
  by_cases hx : (h.g.fl.eflags ||| v.setWidth 32) &&& 0x100200#32 = 0x100200#32
  · have hgp : vmeGp h.g.fl.eflags (v.setWidth 32) := .inl hx
    rw [if_pos hgp, if_pos (show (h.g.fl.eflags ||| v.setWidth 32) &&& 0x100200#32 = 0x100200#32 from hx)]
    refine ⟨h2, rfl, by rw [k2.regs]; exact c1, k2.g.trans g1, by rw [k2.regs]; exact b1, d2, (k2.rd .d .r9).trans n1⟩
  · rw [if_neg (show ¬ (h.g.fl.eflags ||| v.setWidth 32) &&& 0x100200#32 = 0x100200#32 from hx)]
    obtain ⟨h3, r3, k3⟩ := testJ_run (e := e) _ d2
    refine ⟨h3, ?_, by rw [k3.regs, k2.regs]; exact c1, (k3.g.trans k2.g).trans g1, by rw [k3.regs, k2.regs]; exact b1, (k3.rd .d .rdx).trans d2,
      (k3.rd .d .r9).trans ((k2.rd .d .r9).trans n1)⟩
    rw [r3]
    by_cases hy : (v.setWidth 32 : BitVec 32) &&& 0x100#32 = 0#32
    · rw [if_pos hy, if_neg (fun hn : vmeGp _ _ => hn.elim hx (fun h => h hy))]
    · rw [if_neg hy, if_pos (show vmeGp _ _ from .inr hy)]

/-- EFLAGS with VIF the IF of `v`. -/
def vifFrom (w v : BitVec 32) : BitVec 32 := ((v &&& 0x200#32) <<< 10) ||| (w &&& 0xFFF7FFFF#32)

theorem popfVme_run {e : Env} {h : Host.St} (hc : h.r .rcx = e.ctx) (s : Ss) :
    match Stack.popVal e.ok (view e s h.g (h.g.gpr 4)) 2 with
    | some (v, p) =>
      if vmeGp h.g.fl.eflags (BitVec.ofNat 32 v) then popfVme e s h = .fault h.g
      else ∃ h', popfVme e s h = .next 0 h' ∧ h'.r .rcx = e.ctx ∧
        h'.g = { setEsp h.g p with fl := Flags.popfUpdate { h.g.fl with eflags := vifFrom h.g.fl.eflags (BitVec.ofNat 32 v) } (BitVec.ofNat 32 v) 0x4500#32 }
    | none => popfVme e s h = .fault h.g := by
  have hp := popCode_run hc s .w false
  rw [show Sz.w.bytes = 2 from rfl] at hp
  cases hq : Stack.popVal e.ok (view e s h.g (h.g.gpr 4)) 2 with
  | none =>
    rw [hq] at hp
    have : run e 0 (popfVmeCheck s) h = .fault h.g := run_append_fault _ hp
    show popfVme e s h = _
    unfold popfVme
    rw [this]
  | some q =>
    obtain ⟨v, p⟩ := q
    rw [hq] at hp
    obtain ⟨hpe, hv, h1, r1, g1, c1, p1, v1, -⟩ := hp
    rw [if_neg (by decide)] at g1
    have hv' : v < 2 ^ 16 := hv
    obtain ⟨h2, r2, c2, g2, b2, d2, n2⟩ := vmeCheck_run c1 _ v1
    have hz : ((BitVec.ofNat 16 v).setWidth 32 : BitVec 32) = BitVec.ofNat 32 v := by
      apply BitVec.eq_of_toNat_eq
      rw [BitVec.toNat_setWidth, BitVec.toNat_ofNat, BitVec.toNat_ofNat, Nat.mod_eq_of_lt hv']
    have r2' : run e 0 (popfVmeCheck s) h = .next (if vmeGp h1.g.fl.eflags ((BitVec.ofNat 16 v).setWidth 32) then 0 else 1) h2 := (run_append _ r1).trans r2
    have d2' : rd h2 .d .rdx = (BitVec.ofNat 16 v).setWidth 32 := d2
    rw [hz] at r2' d2'
    rw [g1] at r2' g2 n2
    show if vmeGp h.g.fl.eflags (BitVec.ofNat 32 v) then _ else _
    generalize hw : BitVec.ofNat 32 v = w at *
    by_cases hgp : vmeGp h.g.fl.eflags w
    · rw [if_pos hgp] at r2' ⊢
      unfold popfVme
      rw [r2']
      exact congrArg Out.fault g2
    · rw [if_neg hgp] at r2' ⊢
      obtain ⟨h3, r3, g3, k3, -⟩ := stSp_run c2 s p (ptr_same p1 b2) (fun hs => by rw [hpe, g2]; exact pushed_high s _ _ hs)
      have c3 : h3.r .rcx = e.ctx := by rw [k3]; exact c2
      have d3 : rd h3 .d .rdx = w := by show (h3.r .rdx).setWidth _ = _; rw [k3]; exact d2'
      have n3 : rd h3 .d .r9 = h.g.fl.eflags := by show (h3.r .r9).setWidth _ = _; rw [k3]; exact n2
      obtain ⟨h4, r4, c4, g4, b4⟩ : ∃ h4, run e 0 [.mov .d .rbx (.reg .rdx), .alu .and .d .r9 (.imm 0xFFF7FFFF#64), .alu .and .d .rdx (.imm 0x200#64),
          .sh .shl .d .rdx 10, .alu .or .d .rdx (.reg .r9), .stEfl .rdx] h3 = .next 0 h4 ∧ h4.r .rcx = e.ctx ∧
          h4.g = { h3.g with fl := { h3.g.fl with eflags := vifFrom h.g.fl.eflags w } } ∧ rd h4 .d .rbx = w := by
        hexec' [c3, d3, n3, rd_wr_d]
        refine ⟨_, rfl, ?_⟩
        hexec' [c3, d3, n3, rd_wr_d]
        exact ⟨trivial, rfl, trivial⟩
      obtain ⟨h5, r5, c5, g5⟩ := popfEnd_run c4 0x4500#32 _ b4
      refine ⟨h5, ?_, c5, ?_⟩
      · unfold popfVme
        rw [r2']
        exact (run_append _ ((run_append _ r3).trans r4)).trans r5
      · rw [g5, g4, g3, g2]
        rfl
end Verif.Emit
