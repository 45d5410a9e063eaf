import Verif.Lemmas.EmitReal
import Verif.Spec.EmitEa
import Verif.Props.EmitShift
import Verif.Props.EmitMul
import Verif.Props.EmitMore
/-
C97: instructions with a memory operand, the code that computes its address included.
-/
namespace Verif.Emit
open Host Guest Flags
open Spec

theorem oneEa (pre post : List I) (h1 : pre.all quiet = true) (h2 : post.all noEa = true) {f : Ea → List I}
    (hf : ∀ a, f a = pre ++ .ea a :: post) : OneEa f := ⟨pre, post, hf, h1, h2⟩

theorem all_app {p : I → Bool} {l1 l2 : List I} (h1 : l1.all p = true) (h2 : l2.all p = true) : (l1 ++ l2).all p = true := by
  rw [List.all_append, h1, h2]; rfl

theorem all_ite {p : I → Bool} {c : Prop} [Decidable c] {l1 l2 : List I} (h1 : l1.all p = true) (h2 : l2.all p = true) :
    (if c then l1 else l2).all p = true := by
  split
  · exact h1
  · exact h2

theorem noEa_setFlags (z : Sz) (r : Reg) (a : Src) : (setFlags z r a).all noEa = true := by
  unfold setFlags
  exact all_app (all_ite rfl rfl) rfl

theorem noEa_arith (sum : Bool) (z : Sz) (s1 : Src) (b : Bool) (s2 : Src) : (setFlagsArith sum z s1 b s2).all noEa = true := by
  cases sum <;> cases z <;> cases s1 <;> cases b <;> cases s2 <;> rfl

theorem noEa_op (z : Sz) (o : Op) (d : Reg) (s : Src) : (o.code z d s).all noEa = true := by
  cases o <;> rfl

theorem quiet_cond (c : CC) : (condCode c).all quiet = true := by
  cases c <;> rfl

theorem quiet_all {l : List I} (h : l.all quiet = true) : l.all noEa = true := by
  rw [List.all_eq_true] at h ⊢
  exact fun i hi => quiet_noEa (h i hi)

theorem noEa_incDec (sum : Bool) (z : Sz) : (incDecFlags sum z).all noEa = true := by
  unfold incDecFlags
  exact all_app (all_app rfl (noEa_arith ..)) rfl

theorem noEa_shPost (k : ShKind) (z : Sz) (cl : Bool) : (shPostMem k z cl).all noEa = true := by
  unfold shPostMem shFlags
  cases k <;> cases cl <;> cases z <;> rfl

/-- The part of shPreMem after the address. -/
theorem shPreMem_eq (k : ShKind) (z : Sz) (cl : Bool) : ∃ post : List I, post.all noEa = true ∧ ∀ a, shPreMem k z cl a = .ea a :: post := by
  cases k with
  | sh o => exact ⟨_, by cases cl <;> rfl, fun a => rfl⟩
  | rot o => exact ⟨_, by cases cl <;> cases o <;> rfl, fun a => rfl⟩
  | dsh l s => exact ⟨_, by cases cl <;> rfl, fun a => rfl⟩

theorem shBody_eq (k : ShKind) (z : Sz) (c : Option Nat) : ∃ post : List I, post.all noEa = true ∧ ∀ a, shBody k z c (.mem a) = .ea a :: post := by
  obtain ⟨p, hp, he⟩ := shPreMem_eq k z c.isNone
  refine ⟨p ++ ([.shop k.host z .rax .rbx c] ++ shPostMem k z c.isNone), all_app hp (all_app rfl (noEa_shPost ..)), fun a => ?_⟩
  show shPreMem k z c.isNone a ++ _ = _
  rw [he]; rfl

theorem length_shBody (k : ShKind) (z : Sz) (c : Option Nat) (a b : Ea) : (shBody k z c (.mem a)).length = (shBody k z c (.mem b)).length := by
  obtain ⟨p, _, he⟩ := shBody_eq k z c
  rw [he, he]; rfl

theorem one_alu (o : Op) (z : Sz) (f : Form) : OneEa fun a => emit o z (.mem a) f := by
  cases ho : o.kind with
  | none =>
    cases f with
    | rmR s =>
      refine oneEa [] _ rfl ?_ (fun a => by simp only [emit, ho]; rfl)
      exact all_ite (all_app (all_app (all_app rfl (noEa_op ..)) rfl) (noEa_setFlags ..)) (all_app (all_app rfl (noEa_op ..)) (noEa_setFlags ..))
    | rRm d =>
      refine oneEa [.ldG z .rbx d] _ rfl ?_ (fun a => by simp only [emit, ho]; rfl)
      exact all_app (all_app (all_app rfl (noEa_op ..)) (all_ite rfl rfl)) (noEa_setFlags ..)
    | rmImm v =>
      refine oneEa [] _ rfl ?_ (fun a => by simp only [emit, ho]; rfl)
      exact all_ite (all_app (all_app (all_app rfl (noEa_op ..)) rfl) (noEa_setFlags ..)) (all_app (all_app rfl (noEa_op ..)) (noEa_setFlags ..))
  | some k =>
    cases f with
    | rmR s =>
      refine oneEa [] _ rfl ?_ (fun a => by simp only [emit, ho]; rfl)
      exact all_app (all_ite (all_app (all_app rfl (noEa_op ..)) rfl) (all_app rfl (noEa_op ..))) (noEa_arith ..)
    | rRm d =>
      refine oneEa [] _ rfl ?_ (fun a => by simp only [emit, ho]; rfl)
      exact all_app (all_app (all_app rfl (noEa_op ..)) (all_ite rfl rfl)) (noEa_arith ..)
    | rmImm v =>
      refine oneEa [] _ rfl ?_ (fun a => by simp only [emit, ho]; rfl)
      exact all_app (all_ite (all_app (all_app rfl (noEa_op ..)) rfl) (all_app (all_app rfl (noEa_op ..)) rfl)) (noEa_arith ..)

theorem noEa_mulFlags : mulFlags.all noEa = true := rfl

theorem one_or_none (i : MemInsn) : (OneEa fun a => i.code a) ∨ (∀ a, i.code a = []) := by
  cases i with
  | alu o z f => exact .inl (one_alu o z f)
  | incDec s z => exact .inl (oneEa [] _ rfl (all_app (l1 := [_, _, _, _, _, _, _, _, _]) rfl (noEa_incDec ..)) fun a => rfl)
  | neg z => exact .inl (oneEa [] _ rfl (all_app (l1 := [_, _, _, _, _, _, _, _, _]) rfl (noEa_arith false ..)) fun a => rfl)
  | not z => exact .inl (oneEa [] _ rfl rfl fun a => rfl)
  | xadd z src => exact .inl (oneEa [_] _ rfl (all_app (l1 := [_, _, _, _, _, _, _, _, _, _, _]) rfl (noEa_arith true ..)) fun a => rfl)
  | xchg z src => exact .inl (oneEa [_] _ rfl rfl fun a => rfl)
  | cmpxchg z src =>
    exact .inl (oneEa [_] _ rfl (all_app (l1 := [_, _, _, _, _, _, _, _, _, _, _, _, _, _]) rfl (noEa_arith false ..)) fun a => rfl)
  | cmpxchg8b => exact .inl (oneEa [] _ rfl rfl fun a => rfl)
  | mul z => exact .inl (oneEa [] (([.ldMem z, .ldG z .rbx acc, .mul1 false z .rbx] ++
      (if z = .b then [I.stG .w acc .rax] else [.stG z acc .rax, .stG z edx .rdx])) ++ mulFlags) rfl (all_app (all_app rfl (all_ite rfl rfl)) rfl) fun a => rfl)
  | imul1 z => exact .inl (oneEa [] (([.ldMem z, .ldG z .rbx acc, .xchg z .rax .rbx, .mul1 true z .rbx] ++
      (if z = .b then [I.stG .w acc .rax] else [.stG z acc .rax, .stG z edx .rdx])) ++ mulFlags) rfl (all_app (all_app rfl (all_ite rfl rfl)) rfl) fun a => rfl)
  | imul2 z dst => exact .inl (oneEa [] _ rfl rfl fun a => rfl)
  | imul3 z dst v => exact .inl (oneEa [] _ rfl rfl fun a => rfl)
  | movx s zd zs dst => exact .inl (oneEa [] _ rfl rfl fun a => rfl)
  | bscan rv z dst => exact .inl (oneEa [] _ rfl rfl fun a => rfl)
  | setcc c => exact .inl (oneEa (condCode c) [.stMem .b] (quiet_cond c) rfl fun a => rfl)
  | cmovcc c z dst =>
    refine .inl (oneEa (condCode c ++ [.movzx .b .rbx .r8]) [.ldMem z, .test .d .rbx .rbx, .ldG z .rdx dst, .cmov .ne z .rdx .rax, .stG z dst .rdx]
      (all_app (quiet_cond c) rfl) rfl fun a => ?_)
    show condCode c ++ [.movzx .b .rbx .r8] ++ [.ea a, .ldMem z] ++ _ = _
    simp only [List.append_assoc, List.cons_append, List.nil_append]
  | bound z dst => exact .inl (oneEa [_] _ rfl rfl fun a => rfl)
  | shift k z n =>
    cases n with
    | imm v =>
      by_cases h0 : shCount v = 0
      · exact .inr fun a => if_pos h0
      · obtain ⟨p, hp, he⟩ := shBody_eq k z (some (shCount v))
        exact .inl (oneEa [] p rfl hp fun a => (if_neg h0).trans (he a))
    | cl =>
      obtain ⟨p, hp, he⟩ := shBody_eq k z none
      refine .inl (oneEa [.ldG .b .r9 ⟨1, false⟩, .alu .and .b .r9 (.imm 0x1F#64), .cmp .b .r9 (.imm 0#64), .jeq (1 + p.length)] p rfl hp fun a => ?_)
      show [I.ldG .b .r9 ⟨1, false⟩, .alu .and .b .r9 (.imm 0x1F#64), .cmp .b .r9 (.imm 0#64), .jeq (shBody k z none (.mem a)).length] ++
        shBody k z none (.mem a) = _
      rw [he, List.length_cons, Nat.add_comm]
  | movRmR z src => exact .inl (oneEa [_] _ rfl rfl fun a => rfl)
  | movRRm z dst => exact .inl (oneEa [] _ rfl rfl fun a => rfl)
  | movToMoffs z => exact .inl (oneEa [] _ rfl rfl fun a => rfl)
  | movImm z v => exact .inl (oneEa [] _ rfl rfl fun a => rfl)
  | movRmSel s => exact .inl (oneEa [_] _ rfl rfl fun a => rfl)
  | movSelRm z => exact .inl (oneEa [] _ rfl rfl fun a => rfl)
  | lea z dst => exact .inl (oneEa [] _ rfl rfl fun a => rfl)
  | push s z => exact .inl (oneEa [] _ rfl (by obtain ⟨b, c⟩ := s; cases b <;> cases c <;> rfl) fun a => rfl)
  | pop s z => exact .inl (oneEa [] _ rfl (by obtain ⟨b, c⟩ := s; cases b <;> cases c <;> rfl) fun a => rfl)
  | bit k z n => exact .inl (oneEa [] ((([.mov .d .rbx (.reg .rdx), .ldMem z, .mov .d .rdx (.reg .rbx), .stL z 0 .rax] ++ bitLd z n) ++
      [.btL k z 0 (bitSrc n), .setcc .c .rbx]) ++ (if k = 0 then [] else [.ldL z .r8 0, .stMem z]) ++ bitFlags) rfl
      (all_app (all_app (all_app (all_app rfl (by cases n <;> rfl)) rfl) (all_ite rfl rfl)) rfl) fun a => rfl)
  | div sg z eip => exact .inl (oneEa [] _ rfl rfl fun a => rfl)

theorem addr_spec {e : Env} (g : G) {m : MemOp} (hm : Proper e m) : Address e g m (m.addr e g) := by
  obtain ⟨a32, mode, seg, flat, addBase⟩ := m
  obtain ⟨hz, hp⟩ := hm
  simp only at hz hp
  cases mode with
  | moffs d =>
    simp only at hp
    subst hp
    exact EffAddr.C64_direct a32 flat (e.seg seg) hz d
  | modrm o =>
    cases addBase with
    | true => exact EffAddr.C64_linear_address a32 flat (e.seg seg) hz g.gpr o hp.1
    | false => exact EffAddr.C64_offset_only a32 flat (e.seg seg) g.gpr o hp.1

theorem proper_ok {e : Env} {m : MemOp} (hm : Proper e m) : m.ok := by
  obtain ⟨a32, mode, seg, flat, addBase⟩ := m
  cases mode with
  | moffs d => trivial
  | modrm o => exact hm.2.2

/-- C97: whatever the memory operand of an instruction (direct, or by ModRM and SIB, with 16 or 32 bit addressing, any segment),
the emitted code with the computation of the operand's address in its place does what the code with the operand's linear address does: the
address computed is the segment's base plus base + index * scale + displacement modulo the address size, from the registers before the
instruction, and the computation disturbs nothing the rest of the code uses. -/
theorem C97_operand (i : MemInsn) {e : Env} {h : Host.St} (hc : h.r .rcx = e.ctx) (m : MemOp) (hm : Proper e m) :
    ∃ a : Ea, Address e h.g m a.lin ∧ ∀ a0, runWith e m 0 (i.code a0) h = run e 0 (i.code a) h := by
  rcases one_or_none i with ho | ho
  · obtain ⟨a, ha, hr⟩ := realize ho m (proper_ok hm) hc
    exact ⟨a, ha ▸ addr_spec h.g hm, hr⟩
  · refine ⟨⟨m.addr e h.g, 0, 0, fun _ => false⟩, addr_spec h.g hm, fun a0 => ?_⟩
    rw [ho, ho]; rfl

theorem address_unique {e : Env} {g : G} {m : MemOp} {a b : BitVec 32} (ha : Address e g m a) (hb : Address e g m b) : a = b := by
  obtain ⟨a32, mode, seg, flat, addBase⟩ := m
  apply BitVec.eq_of_toNat_eq
  cases mode <;> exact Int.ofNat_inj.1 (Eq.trans ha (Eq.symm hb))

/-- C97, ADD, ADC, SUB, SBB, CMP, AND, OR, XOR, TEST with a memory operand at the address `a`, as C82_alu. -/
theorem C97_alu (o : Op) {z : Sz} (hz : z ≠ .q) (e : Env) (h : Host.St) (hc : h.r .rcx = e.ctx) (hcl : Clean h.g.fl)
    (m : MemOp) (hm : Proper e m) (a : Ea) (ha : Address e h.g m a.lin) (f : Form) :
    (allowed e z o.writes (dst (.mem a) f) (src (.mem a) f) = true → ∃ h', runWith e m 0 (emit o z (.mem a) f) h = .next 0 h' ∧
      h'.r .rcx = e.ctx ∧
      SameButFlags (if o.writes then (dst (.mem a) f).set h.g z
        (result o (flags h.g.fl).cf ((dst (.mem a) f).get h.g z) ((src (.mem a) f).get h.g z)) else h.g) h'.g ∧
      FlagsAfter o (flags h.g.fl).cf ((dst (.mem a) f).get h.g z) ((src (.mem a) f).get h.g z) (flags h'.g.fl)) ∧
    (allowed e z o.writes (dst (.mem a) f) (src (.mem a) f) = false → runWith e m 0 (emit o z (.mem a) f) h = .fault h.g) := by
  obtain ⟨b, hb, hr⟩ := C97_operand (.alu o z f) hc m hm
  have hl := address_unique ha hb
  have hd : dst (.mem a) f = dst (.mem b) f := by cases f <;> simp only [dst, ofRm, hl]
  have hs : src (.mem a) f = src (.mem b) f := by cases f <;> simp only [src, ofRm, hl]
  have h0 := hr a
  simp only [MemInsn.code] at h0
  rw [h0, hd, hs]
  exact C82_alu o hz e h hc hcl (.mem b) f

/-- C97, shifts and rotates of a memory operand at the address `a`, as C95_shift. -/
theorem C97_shift {z : Sz} (hz : z ≠ .q) (e : Env) (h : Host.St) (hc : h.r .rcx = e.ctx) (hcl : Clean h.g.fl)
    (m : MemOp) (hm : Proper e m) (a : Ea) (ha : Address e h.g m a.lin) (k : ShKind) (n : ShCnt) :
    (count h.g n = 0 → ∃ h', runWith e m 0 (shiftCode k z (.mem a) n) h = .next 0 h' ∧ h'.r .rcx = e.ctx ∧ h'.g = h.g) ∧
    (count h.g n ≠ 0 →
      (allowed e z true (.mem a) (.mem a) = true →
        ∃ h' r, runWith e m 0 (shiftCode k z (.mem a) n) h = .next 0 h' ∧ h'.r .rcx = e.ctx ∧
          SameButFlags (Opd.set h.g z r (.mem a)) h'.g ∧
          Shifted (Opd.get h.g z (.mem a)) (shSrc h.g z k) (count h.g n) (flags h.g.fl) r (flags h'.g.fl) k) ∧
      (allowed e z true (.mem a) (.mem a) = false → runWith e m 0 (shiftCode k z (.mem a) n) h = .fault h.g)) := by
  obtain ⟨b, hb, hr⟩ := C97_operand (.shift k z n) hc m hm
  have hl := address_unique ha hb
  have h0 := hr a
  simp only [MemInsn.code] at h0
  rw [h0, hl]
  exact C95_shift hz e h hc hcl k (.mem b) n

/-- C97, MOVZX and MOVSX of a memory operand at the address `a`. -/
theorem C97_movx (sg : Bool) {zd zs : Sz} (e : Env) (h : Host.St) (hc : h.r .rcx = e.ctx) (dst : GReg)
    (m : MemOp) (hm : Proper e m) (a : BitVec 32) (ha : Address e h.g m a) (a0 : Ea) :
    (e.ok a zs.bytes false = true → ∃ h', runWith e m 0 (movx sg zd zs dst (.mem a0)) h = .next 0 h' ∧ h'.r .rcx = e.ctx ∧
      h'.g = wrG h.g zd dst (extend sg zd (BitVec.ofNat zs.bits (load h.g.mem a zs.bytes)))) ∧
    (e.ok a zs.bytes false = false → runWith e m 0 (movx sg zd zs dst (.mem a0)) h = .fault h.g) := by
  obtain ⟨b, hb, hr⟩ := C97_operand (.movx sg zd zs dst) hc m hm
  obtain rfl := address_unique ha hb
  have h0 := hr a0
  simp only [MemInsn.code] at h0
  rw [h0]
  exact C84_movx sg e h hc dst (.mem b)

/-! Non-trivial cases: EAX = 0x2FF, EBX = 1; `SS:[EAX + EBX*4 - 3]` with the base 0x2000 of SS, and `[BX + SI - 2]`, which wraps. -/

/-- Example operands. -/
def exM32 : MemOp := ⟨true, .modrm ⟨some 0, some (3, 2), some (-3#64), true⟩, 2, false, true⟩
def exM16 : MemOp := ⟨false, .modrm ⟨some 3, some (6, 0), some (-2#64), true⟩, 3, true, true⟩

theorem exM32_proper : Proper exEnv exM32 :=
  ⟨fun h => (by cases h), (by intro _ d h; obtain rfl := Option.some.inj h; decide), (by intro i n h; cases h; decide)⟩
theorem exM16_proper : Proper exEnv exM16 :=
  ⟨fun _ => rfl, (by intro _ d h; obtain rfl := Option.some.inj h; decide), (by intro i n h; cases h; decide)⟩
example : Address exEnv exSt.g exM32 0x2300#32 :=
  show (((0x2300#32 : BitVec 32).toNat : Nat) : Int) = EffAddr.linear true 0x2000 0x2FF 1 2 (-3) by decide +kernel
example : Address exEnv exSt.g exM16 0xFFFF#32 :=
  show (((0xFFFF#32 : BitVec 32).toNat : Nat) : Int) = EffAddr.linear false 0 1 0 0 (-2) by decide +kernel
-- ADC byte SS:[EAX + EBX*4 - 3], AH: the byte is 0x80 and CF is set
example : exOut (runWith exEnv exM32 0 (emit .adc .b (.mem (exEa 0#32)) (.rmR ⟨0, true⟩)) exSt) 0 0x2300#32 =
  some (0x2FF#32, 0x83#8, 0x82#32) := by decide +kernel
-- SHL byte [..], 1; a fault at [BX + SI - 2], which may not be written
example : exOut (runWith exEnv exM32 0 (shiftCode (.sh .shl) .b (.mem (exEa 0#32)) (.imm 1)) exSt) 0 0x2300#32 =
  some (0x2FF#32, 0#8, 0x847#32) := by decide +kernel
example : exOut (runWith exEnv exM16 0 (emit .adc .b (.mem (exEa 0#32)) (.rmR ⟨0, true⟩)) exSt) 0 0 = none := by decide +kernel
-- MOVZX ECX, byte [BX + SI - 2]
example : exOut (runWith exEnv exM16 0 (movx false .d .b ⟨1, false⟩ (.mem (exEa 0#32))) exSt) 1 0 =
  some (0x80#32, 0x80#8, Flags.readEflags exSt.g.fl) := by decide +kernel

end Verif.Emit
