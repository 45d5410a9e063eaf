import Verif.Spec.EmitStr
import Verif.Lemmas.EmitMov
import Verif.Props.StringElem
/-
Running the code of one turn of a string instruction (Model/EmitStr.lean).
-/
namespace Verif.Emit
open Host Spec

def setR (g : G) (i : Fin 8) (v : BitVec 32) : G := { g with gpr := fun j => if j = i then v else g.gpr j }

theorem low16_zext (v : BitVec 32) : BitVec.setWidth 32 (BitVec.setWidth 16 v) = v &&& 0xFFFF#32 := by bits32
theorem low16_cast (v : BitVec 64) : BitVec.setWidth 32 (BitVec.setWidth 16 v) = BitVec.setWidth 32 v &&& 0xFFFF#32 := by bits32

theorem step_ldIdx (e : Env) (h : Host.St) (hc : h.r .rcx = e.ctx) (a32 : Bool) (d : Reg) (i : Fin 8) :
    step e h (ldIdx a32 d ⟨i, false⟩) = .next 0 (wr h .d d (StringOps.rdIdx a32 (h.g.gpr i))) := by
  unfold ldIdx StringOps.rdIdx
  cases a32
  · simp only [Bool.false_eq_true, if_false, step, ctxd, if_pos hc, rdG, and_false]
    congr 2
    exact low16_zext _
  · simp only [if_true, step, ctxd, if_pos hc, rdG, Bool.false_eq_true, and_false, if_false]
    congr 2

theorem step_stIdx (e : Env) (h : Host.St) (hc : h.r .rcx = e.ctx) (a32 : Bool) (s : Reg) (i : Fin 8) :
    step e h (stIdx a32 ⟨i, false⟩ s) = .next 0 (h.setG (setR h.g i (StringOps.wrIdx a32 (h.g.gpr i) (rd h .d s)))) := by
  unfold stIdx StringOps.wrIdx
  cases a32
  · simp only [Bool.false_eq_true, if_false, step, ctxd, if_pos hc, wrG, setR, putG]
    congr 3
    funext j
    split
    · exact congrArg (_ ||| ·) (low16_cast _)
    · rfl
  · simp only [if_true, step, ctxd, if_pos hc, wrG, setR, putG]
    rfl

theorem run_ldIdx (e : Env) (h : Host.St) (hc : h.r .rcx = e.ctx) (a32 : Bool) (d : Reg) (i : Fin 8) (l : List I) :
    run e 0 (ldIdx a32 d ⟨i, false⟩ :: l) h = run e 0 l (wr h .d d (StringOps.rdIdx a32 (h.g.gpr i))) := by
  rw [run_step, step_ldIdx e h hc]

theorem run_stIdx (e : Env) (h : Host.St) (hc : h.r .rcx = e.ctx) (a32 : Bool) (s : Reg) (i : Fin 8) (l : List I) :
    run e 0 (stIdx a32 ⟨i, false⟩ s :: l) h = run e 0 l (h.setG (setR h.g i (StringOps.wrIdx a32 (h.g.gpr i) (rd h .d s)))) := by
  rw [run_step, step_stIdx e h hc]

/-- The flags of a comparison. -/
def subFl {n : Nat} (g : G) (a b : BitVec n) : G := { g with fl := arith false g.fl a b (a - b) }

/-- The guest state after the element, the indices not yet moved. -/
def mid (e : Env) (x : StrInsn) (g : G) : G :=
  let a := StringOps.rdIdx x.a32 (g.gpr 6) + e.seg x.seg
  let b := StringOps.rdIdx x.a32 (g.gpr 7) + e.seg 0
  match x.i with
  | .movs => { g with mem := Guest.store g.mem b x.z.bytes (BitVec.ofNat x.z.bits (Guest.load g.mem a x.z.bytes)).toNat }
  | .stos => { g with mem := Guest.store g.mem b x.z.bytes (rdG g x.z acc).toNat }
  | .lods => wrG g x.z acc (BitVec.ofNat x.z.bits (Guest.load g.mem a x.z.bytes))
  | .cmps => subFl g (BitVec.ofNat x.z.bits (Guest.load g.mem a x.z.bytes)) (BitVec.ofNat x.z.bits (Guest.load g.mem b x.z.bytes))
  | .scas => subFl g (rdG g x.z acc) (BitVec.ofNat x.z.bits (Guest.load g.mem b x.z.bytes))

/-- The accesses of the element are allowed. -/
def may (e : Env) (x : StrInsn) (g : G) : Bool :=
  let a := StringOps.rdIdx x.a32 (g.gpr 6) + e.seg x.seg
  let b := StringOps.rdIdx x.a32 (g.gpr 7) + e.seg 0
  match x.i with
  | .movs => e.ok a x.z.bytes false && e.ok b x.z.bytes true
  | .stos => e.ok b x.z.bytes true
  | .lods => e.ok a x.z.bytes false
  | .cmps => e.ok b x.z.bytes false && e.ok a x.z.bytes false
  | .scas => e.ok b x.z.bytes false

/-- The indices are in the host registers. -/
def Held (i : StringOps.Instr) (a32 : Bool) (g : G) (h : Host.St) : Prop := ∀ p ∈ idxRegs i, rd h .d p.2 = StringOps.rdIdx a32 (g.gpr p.1.idx)

/-- What the element's code does. -/
def ElemRuns (e : Env) (x : StrInsn) (h : Host.St) : Prop :=
  (may e x h.g = true → ∃ h1, run e 0 (elemCode x) h = .next 0 h1 ∧ h1.r .rcx = e.ctx ∧ h1.g = mid e x h.g ∧ Held x.i x.a32 h.g h1) ∧
  (may e x h.g = false → run e 0 (elemCode x) h = .fault h.g)

/-- The state after the base is added. -/
def based (e : Env) (flat : Bool) (s : Fin 6) (h : Host.St) : Host.St :=
  if flat then h else (wr h .d .rdx (rd h .d .rdx + e.seg s)).setF (rd h .d .rdx + e.seg s == 0) (e.hf h .cf) (e.hf h .of) (e.hf h .sf)

theorem run_addBase (e : Env) (h : Host.St) (hc : h.r .rcx = e.ctx) (flat : Bool) (s : Fin 6) (l : List I) :
    run e 0 (addBase flat s ++ l) h = run e 0 l (based e flat s h) := by
  unfold addBase based
  cases flat
  · hexec [hc, Bool.false_eq_true]
  · rfl
theorem rd_based (e : Env) (h : Host.St) (flat : Bool) (s : Fin 6) (hf : flat = true → e.seg s = 0#32) :
    rd (based e flat s h) .d .rdx = rd h .d .rdx + e.seg s := by
  unfold based
  cases flat
  · hexec [Bool.false_eq_true]
  · rw [if_pos rfl, hf rfl]; exact (BitVec.add_zero _).symm
theorem rd_based_ne (e : Env) (h : Host.St) (flat : Bool) (s : Fin 6) (z : Sz) (r : Reg) (hr : r ≠ .rdx) : rd (based e flat s h) z r = rd h z r := by
  unfold based
  cases flat
  · exact rd_wr_ne _ _ _ hr _
  · rfl
theorem based_rcx (e : Env) (h : Host.St) (flat : Bool) (s : Fin 6) : (based e flat s h).r .rcx = h.r .rcx := by
  unfold based
  cases flat
  · hexec [Bool.false_eq_true]
  · rfl
theorem based_g (e : Env) (h : Host.St) (flat : Bool) (s : Fin 6) : (based e flat s h).g = h.g := by
  unfold based
  cases flat <;> rfl
theorem rdL_based (e : Env) (h : Host.St) (flat : Bool) (s : Fin 6) (z : Sz) (i : Nat) : rdL (based e flat s h) z i = rdL h z i := by
  unfold based
  cases flat <;> rfl

macro "sexec" "[" ts:Lean.Parser.Tactic.simpLemma,* "]" : tactic =>
  `(tactic| hexec [↓run_ldIdx, ↓run_addBase, rd_based_ne, based_rcx, based_g, rdL_based, Bool.false_eq_true, $ts,*])
macro "slist" : tactic => `(tactic| simp only [List.cons_append, List.nil_append, List.append_nil, List.append_assoc])

theorem stos_run (e : Env) (x : StrInsn) (h : Host.St) (hc : h.r .rcx = e.ctx) (hi : x.i = .stos) (hd : x.dstFlat = true → e.seg 0 = 0#32) :
    ElemRuns e x h := by
  unfold ElemRuns may mid elemCode Held idxRegs
  rw [hi]
  dsimp only
  unfold edi
  slist
  sexec [hc, rd_based e _ _ _ hd]
  cases ho : e.ok (StringOps.rdIdx x.a32 (h.g.gpr 7) + e.seg 0) x.z.bytes true
  · sexec [hc, ho]
    exact ⟨fun h => h.elim, fun _ => trivial⟩
  · sexec [hc, ho]
    refine ⟨fun _ => ⟨_, rfl, ?_⟩, fun h => by cases h⟩
    sexec [hc]
    exact ⟨trivial, trivial, fun p hp => by cases hp with | head => sexec [] | tail _ hp => cases hp⟩

theorem lods_run (e : Env) (x : StrInsn) (h : Host.St) (hc : h.r .rcx = e.ctx) (hi : x.i = .lods) (hd : x.srcFlat = true → e.seg x.seg = 0#32) :
    ElemRuns e x h := by
  unfold ElemRuns may mid elemCode Held idxRegs
  rw [hi]
  dsimp only
  unfold esi
  slist
  sexec [hc, rd_based e _ _ _ hd]
  cases ho : e.ok (StringOps.rdIdx x.a32 (h.g.gpr 6) + e.seg x.seg) x.z.bytes false
  · sexec [hc, ho]
    exact ⟨fun h => h.elim, fun _ => trivial⟩
  · sexec [hc, ho]
    refine ⟨fun _ => ⟨_, rfl, ?_⟩, fun h => by cases h⟩
    sexec [hc]
    exact ⟨trivial, trivial, fun p hp => by cases hp with | head => sexec [] | tail _ hp => cases hp⟩

theorem movs_run (e : Env) (x : StrInsn) (h : Host.St) (hc : h.r .rcx = e.ctx) (hi : x.i = .movs) (hs : x.srcFlat = true → e.seg x.seg = 0#32)
    (hd : x.dstFlat = true → e.seg 0 = 0#32) : ElemRuns e x h := by
  unfold ElemRuns may mid elemCode Held idxRegs
  rw [hi]
  dsimp only
  unfold esi edi
  slist
  sexec [hc, rd_based e _ _ _ hd, rd_based e _ _ _ hs]
  cases ho : e.ok (StringOps.rdIdx x.a32 (h.g.gpr 6) + e.seg x.seg) x.z.bytes false
  · sexec [hc, ho, Bool.false_and]
    exact ⟨fun h => h.elim, fun _ => trivial⟩
  · cases ho' : e.ok (StringOps.rdIdx x.a32 (h.g.gpr 7) + e.seg 0) x.z.bytes true
    · sexec [hc, ho, ho', rd_based e _ _ _ hd, Bool.and_false]
      exact ⟨fun h => h.elim, fun _ => trivial⟩
    · sexec [hc, ho, ho', rd_based e _ _ _ hd, Bool.and_true]
      refine ⟨fun _ => ⟨_, rfl, ?_⟩, fun h => by cases h⟩
      sexec [hc, rd_based e _ _ _ hd]
      refine ⟨trivial, trivial, fun p hp => ?_⟩
      cases hp with
      | head => sexec []
      | tail _ hp => cases hp with
        | head => sexec []
        | tail _ hp => cases hp

theorem scas_run (e : Env) (x : StrInsn) (h : Host.St) (hz : x.z ≠ .q) (hc : h.r .rcx = e.ctx) (hi : x.i = .scas)
    (hd : x.dstFlat = true → e.seg 0 = 0#32) : ElemRuns e x h := by
  unfold ElemRuns may mid elemCode Held idxRegs
  rw [hi]
  dsimp only
  generalize hl : [ldIdx x.a32 Reg.rdx edi, I.mov .d .rbx (.reg .rdx)] ++ addBase x.dstFlat 0 ++ [I.ldMem x.z, .mov x.z .rdx (.reg .rax), .ldG x.z .rax acc,
      .mov x.z .r8 (.reg .rax), .alu .sub x.z .r8 (.reg .rdx)] = l
  have hl1 : (e.ok (StringOps.rdIdx x.a32 (h.g.gpr 7) + e.seg 0) x.z.bytes false = true → ∃ h1, run e 0 l h = .next 0 h1 ∧ h1.r .rcx = e.ctx ∧
      h1.g = h.g ∧ rd h1 .d .rbx = StringOps.rdIdx x.a32 (h.g.gpr 7) ∧ rd h1 x.z .rax = rdG h.g x.z acc ∧
      rd h1 x.z .rdx = BitVec.ofNat x.z.bits (Guest.load h.g.mem (StringOps.rdIdx x.a32 (h.g.gpr 7) + e.seg 0) x.z.bytes) ∧
      rd h1 x.z .r8 = rdG h.g x.z acc - BitVec.ofNat x.z.bits (Guest.load h.g.mem (StringOps.rdIdx x.a32 (h.g.gpr 7) + e.seg 0) x.z.bytes)) ∧
      (e.ok (StringOps.rdIdx x.a32 (h.g.gpr 7) + e.seg 0) x.z.bytes false = false → run e 0 l h = .fault h.g) := by
    rw [← hl]
    clear hl
    unfold edi
    slist
    sexec [hc, rd_based e _ _ _ hd]
    cases ho : e.ok (StringOps.rdIdx x.a32 (h.g.gpr 7) + e.seg 0) x.z.bytes false
    · sexec [hc, ho]
      exact ⟨fun h => h.elim, fun _ => trivial⟩
    · sexec [hc, ho]
      refine ⟨fun _ => ⟨_, rfl, ?_⟩, fun h => by cases h⟩
      sexec [hc]
      exact ⟨trivial, trivial, trivial, trivial, trivial, trivial⟩
  refine ⟨fun ho => ?_, fun ho => run_append_fault _ (hl1.2 ho)⟩
  obtain ⟨h1, r1, c1, g1, b1, a1, d1, e1⟩ := hl1.1 ho
  obtain ⟨h2, r2, g2, c2, b2, -, -⟩ := flagsArith_run hz false e h1 c1 (.reg .rax) (.reg .rdx) true (.inl ⟨rfl, rfl⟩) (.inr (.inl rfl))
  refine ⟨h2, ?_, c2, ?_, fun p hp => ?_⟩
  · rw [run_append _ r1]
    exact r2
  · rw [g2, g1]
    unfold subFl
    show { h.g with fl := arith false h.g.fl (rd h1 x.z .rax) (rd h1 x.z .rdx) (rd h1 x.z .r8) } = _
    rw [a1, d1, e1]
  · cases hp with
    | head =>
      show (h2.r .rbx).setWidth 32 = _
      rw [b2]
      exact b1
    | tail _ hp => cases hp

theorem cmps_run (e : Env) (x : StrInsn) (h : Host.St) (hz : x.z ≠ .q) (hc : h.r .rcx = e.ctx) (hi : x.i = .cmps)
    (hs : x.srcFlat = true → e.seg x.seg = 0#32) (hd : x.dstFlat = true → e.seg 0 = 0#32) : ElemRuns e x h := by
  unfold ElemRuns may mid elemCode Held idxRegs
  rw [hi]
  dsimp only
  generalize hl : [ldIdx x.a32 .rdx edi, I.stL .d 0 .rdx] ++ addBase x.dstFlat 0 ++ [I.ldMem x.z, .mov x.z .rbx (.reg .rax), ldIdx x.a32 .rdx esi,
      .stL .d 1 .rdx] ++ addBase x.srcFlat x.seg ++ [I.ldMem x.z, .mov x.z .r8 (.reg .rax), .alu .sub x.z .r8 (.reg .rbx)] = l
  have hl1 : ((e.ok (StringOps.rdIdx x.a32 (h.g.gpr 7) + e.seg 0) x.z.bytes false && e.ok (StringOps.rdIdx x.a32 (h.g.gpr 6) + e.seg x.seg) x.z.bytes false) =
        true → ∃ h1, run e 0 l h = .next 0 h1 ∧ h1.r .rcx = e.ctx ∧
      h1.g = h.g ∧ rdL h1 .d 0 = StringOps.rdIdx x.a32 (h.g.gpr 7) ∧ rdL h1 .d 1 = StringOps.rdIdx x.a32 (h.g.gpr 6) ∧
      rd h1 x.z .rax = BitVec.ofNat x.z.bits (Guest.load h.g.mem (StringOps.rdIdx x.a32 (h.g.gpr 6) + e.seg x.seg) x.z.bytes) ∧
      rd h1 x.z .rbx = BitVec.ofNat x.z.bits (Guest.load h.g.mem (StringOps.rdIdx x.a32 (h.g.gpr 7) + e.seg 0) x.z.bytes) ∧
      rd h1 x.z .r8 = BitVec.ofNat x.z.bits (Guest.load h.g.mem (StringOps.rdIdx x.a32 (h.g.gpr 6) + e.seg x.seg) x.z.bytes) -
        BitVec.ofNat x.z.bits (Guest.load h.g.mem (StringOps.rdIdx x.a32 (h.g.gpr 7) + e.seg 0) x.z.bytes)) ∧
      ((e.ok (StringOps.rdIdx x.a32 (h.g.gpr 7) + e.seg 0) x.z.bytes false && e.ok (StringOps.rdIdx x.a32 (h.g.gpr 6) + e.seg x.seg) x.z.bytes false) =
        false → run e 0 l h = .fault h.g) := by
    rw [← hl]
    clear hl
    unfold edi esi
    slist
    sexec [hc, rd_based e _ _ _ hd, rd_based e _ _ _ hs]
    cases ho : e.ok (StringOps.rdIdx x.a32 (h.g.gpr 7) + e.seg 0) x.z.bytes false
    · sexec [hc, ho, Bool.false_and]
      exact ⟨fun h => h.elim, fun _ => trivial⟩
    · cases ho' : e.ok (StringOps.rdIdx x.a32 (h.g.gpr 6) + e.seg x.seg) x.z.bytes false
      · sexec [hc, ho, ho', rd_based e _ _ _ hs, Bool.and_false]
        exact ⟨fun h => h.elim, fun _ => trivial⟩
      · sexec [hc, ho, ho', rd_based e _ _ _ hs, Bool.and_true]
        refine ⟨fun _ => ⟨_, rfl, ?_⟩, fun h => by cases h⟩
        sexec [hc, rd_based e _ _ _ hs]
        exact ⟨trivial, trivial, trivial, trivial, trivial, trivial, trivial⟩
  have hassoc : l ++ setFlagsSub x.z (.reg .rax) true (.reg .rbx) ++ [I.ldL .d .rdx 0, .ldL .d .rax 1] =
    l ++ (setFlagsSub x.z (.reg .rax) true (.reg .rbx) ++ [I.ldL .d .rdx 0, .ldL .d .rax 1]) := List.append_assoc _ _ _
  rw [hassoc]
  refine ⟨fun ho => ?_, fun ho => run_append_fault _ (hl1.2 ho)⟩
  obtain ⟨h1, r1, c1, g1, l0, l1, a1, d1, e1⟩ := hl1.1 ho
  obtain ⟨h2, r2, g2, c2, -, l2, -⟩ := flagsArith_run hz false e h1 c1 (.reg .rax) (.reg .rbx) true (.inl ⟨rfl, rfl⟩) (.inl rfl)
  have r2' : run e 0 (setFlagsSub x.z (.reg .rax) true (.reg .rbx)) h1 = .next 0 h2 := r2
  rw [run_append _ r1, run_append _ r2']
  sexec []
  refine ⟨_, rfl, ?_, ?_, fun p hp => ?_⟩
  · sexec [c2]
  · sexec []
    rw [g2, g1]
    unfold subFl
    show { h.g with fl := arith false h.g.fl (rd h1 x.z .rax) (rd h1 x.z .rbx) (rd h1 x.z .r8) } = _
    rw [a1, d1, e1]
  · have q0 : rdL h2 .d 0 = StringOps.rdIdx x.a32 (h.g.gpr 7) := by unfold rdL; rw [l2]; exact l0
    have q1 : rdL h2 .d 1 = StringOps.rdIdx x.a32 (h.g.gpr 6) := by unfold rdL; rw [l2]; exact l1
    cases hp with
    | head => sexec []; exact q0
    | tail _ hp => cases hp with
      | head => sexec []; exact q1
      | tail _ hp => cases hp

theorem elem_run (e : Env) (x : StrInsn) (h : Host.St) (hx : StrOk e x) (hc : h.r .rcx = e.ctx) : ElemRuns e x h := by
  cases hi : x.i
  · exact movs_run e x h hc hi hx.2.1 hx.2.2
  · exact stos_run e x h hc hi hx.2.2
  · exact lods_run e x h hc hi hx.2.1
  · exact cmps_run e x h hx.1 hc hi hx.2.1 hx.2.2
  · exact scas_run e x h hx.1 hc hi hx.2.2

/-- The indices moved. -/
def slide (x : StrInsn) (df : Bool) (g : G) : G :=
  (idxRegs x.i).foldl (fun g p => setR g p.1.idx (StringOps.stepIdx (senc x) df (g.gpr p.1.idx))) g

def dirOp (df : Bool) : Alu := if df then .sub else .add

theorem bytes_imm (z : Sz) : BitVec.setWidth 32 (BitVec.ofNat 64 z.bytes) = BitVec.ofNat 32 z.bytes := by cases z <;> rfl

theorem move_run (e : Env) (x : StrInsn) (df : Bool) (h : Host.St) (hc : h.r .rcx = e.ctx) (hh : Held x.i x.a32 h.g h) :
    ∃ h', run e 0 (moveCode x (dirOp df)) h = .next 0 h' ∧ h'.r .rcx = e.ctx ∧ h'.g = slide x df h.g := by
  unfold Held at hh
  unfold moveCode slide senc StringOps.stepIdx
  cases hi : x.i <;> (rw [hi] at hh; unfold idxRegs edi esi at *; dsimp only [List.map, List.foldl])
  · have a := hh (⟨7, false⟩, .rbx) (by simp)
    have b := hh (⟨6, false⟩, .rax) (by simp)
    dsimp only at a b
    slist
    cases df <;> (sexec [dirOp, hc, ↓run_stIdx]; refine ⟨_, rfl, ?_, ?_⟩ <;> sexec [dirOp, hc, a, b, bytes_imm, setR])
    · rfl
    · rfl
  · have a := hh (⟨7, false⟩, .rbx) (by simp)
    dsimp only at a
    slist
    cases df <;> (sexec [dirOp, hc, ↓run_stIdx]; refine ⟨_, rfl, ?_, ?_⟩ <;> sexec [dirOp, hc, a, bytes_imm, setR])
  · have a := hh (⟨6, false⟩, .rbx) (by simp)
    dsimp only at a
    slist
    cases df <;> (sexec [dirOp, hc, ↓run_stIdx]; refine ⟨_, rfl, ?_, ?_⟩ <;> sexec [dirOp, hc, a, bytes_imm, setR])
  · have a := hh (⟨7, false⟩, .rdx) (by simp)
    have b := hh (⟨6, false⟩, .rax) (by simp)
    dsimp only at a b
    slist
    cases df <;> (sexec [dirOp, hc, ↓run_stIdx]; refine ⟨_, rfl, ?_, ?_⟩ <;> sexec [dirOp, hc, a, b, bytes_imm, setR])
    · rfl
    · rfl
  · have a := hh (⟨7, false⟩, .rbx) (by simp)
    dsimp only at a
    slist
    cases df <;> (sexec [dirOp, hc, ↓run_stIdx]; refine ⟨_, rfl, ?_, ?_⟩ <;> sexec [dirOp, hc, a, bytes_imm, setR])

theorem run_over (e : Env) (l : List I) (k : Nat) (h : Host.St) : run e (l.length + k) l h = .next k h := by
  induction l with
  | nil => rw [List.length_nil, Nat.zero_add]; rfl
  | cons i l ih => rw [List.length_cons, Nat.add_right_comm]; exact ih

/-- The count decreased. -/
def dec (a32 : Bool) (g : G) : G := setR g 1 (StringOps.wrIdx a32 (g.gpr 1) (StringOps.rdIdx a32 (g.gpr 1) - 1#32))
/-- Whether the loop goes on. -/
def more (x : StrInsn) (r : StringOps.Rep) (g : G) : Bool :=
  !(StringOps.rdIdx x.a32 (g.gpr 1) == 0#32) && (match r with
    | .rep => true
    | .repz => Flags.ldZf g.fl == 0#32
    | .repnz => Flags.ldZf g.fl != 0#32)

theorem hi_zero (x : BitVec 16) : BitVec.setWidth 64 (BitVec.setWidth 32 x) &&& 0xFFFFFFFFFFFF0000#64 = 0#64 := by bits64
theorem lo_same (x : BitVec 16) : BitVec.setWidth 16 (BitVec.setWidth 64 (BitVec.setWidth 32 x)) = x := by bits16
theorem sub_low (x : BitVec 16) : BitVec.setWidth 32 (x - 1#16) = (BitVec.setWidth 32 x - 1#32) &&& 0xFFFF#32 := by
  apply BitVec.eq_of_toNat_eq
  rw [StringOps.low16_toNat, BitVec.toNat_setWidth, BitVec.toNat_sub, BitVec.toNat_sub, BitVec.toNat_setWidth]
  have := x.isLt
  simp only [BitVec.toNat_ofNat]
  omega

theorem dec16 (h : Host.St) (v : BitVec 32) : rd (wr (wr h .d .rax (v &&& 0xFFFF#32)) .w .rax (rd (wr h .d .rax (v &&& 0xFFFF#32)) .w .rax - 1#16)) .d .rax =
    ((v &&& 0xFFFF#32) - 1#32) &&& 0xFFFF#32 := by
  rw [← low16_zext]
  generalize BitVec.setWidth 16 v = x
  rw [← sub_low]
  rw [rd_wr_d h .w]
  have hr : (wr h .d .rax (BitVec.setWidth 32 x)).r .rax = BitVec.setWidth 64 (BitVec.setWidth 32 x) := rfl
  have he : (BitVec.setWidth Sz.w.bits (BitVec.setWidth 32 x) : BitVec 16) = x := by
    show BitVec.setWidth 16 (BitVec.setWidth 32 x) = x
    bits16
  have hp : ∀ v : BitVec 16, (wr (wr h .d .rax (BitVec.setWidth 32 x)) .w .rax v).r .rax =
      ((wr h .d .rax (BitVec.setWidth 32 x)).r .rax &&& 0xFFFFFFFFFFFF0000#64) ||| BitVec.setWidth 64 v := fun _ => rfl
  unfold rd
  rw [hp, hr, hi_zero, BitVec.zero_or]
  refine (show BitVec.setWidth 32 (BitVec.setWidth 64 _) = _ from ?_)
  rw [he]
  generalize x - 1#16 = y
  bits32

theorem repCount_run (e : Env) (a32 : Bool) (h : Host.St) (hc : h.r .rcx = e.ctx) :
    ∃ h', run e 0 [ldIdx a32 .rax ⟨1, false⟩, .alu .sub (if a32 then .d else .w) .rax (.imm 1#64), stIdx a32 ⟨1, false⟩ .rax, .test .d .rax .rax] h =
      .next 0 h' ∧ h'.r .rcx = e.ctx ∧ h'.g = dec a32 h.g ∧ h'.zf = (StringOps.rdIdx a32 ((dec a32 h.g).gpr 1) == 0#32) := by
  cases a32
  · sexec [hc, ↓run_stIdx]
    refine ⟨_, rfl, ?_⟩
    sexec [hc]
    have := dec16 h (h.g.gpr 1)
    refine ⟨trivial, ?_, ?_⟩
    · show setR h.g 1 (StringOps.wrIdx false (h.g.gpr 1) (rd (wr (wr h .d .rax (h.g.gpr 1 &&& 0xFFFF#32)) .w .rax (rd (wr h .d .rax (h.g.gpr 1 &&& 0xFFFF#32)) .w .rax - 1#16)) .d .rax)) = _
      rw [this]
      unfold dec
      congr 1
      show _ ||| _ = _ ||| _
      rw [BitVec.and_assoc, BitVec.and_self]
      rfl
    · show (rd (wr (wr h .d .rax (h.g.gpr 1 &&& 0xFFFF#32)) .w .rax (rd (wr h .d .rax (h.g.gpr 1 &&& 0xFFFF#32)) .w .rax - 1#16)) .d .rax &&&
        rd (wr (wr h .d .rax (h.g.gpr 1 &&& 0xFFFF#32)) .w .rax (rd (wr h .d .rax (h.g.gpr 1 &&& 0xFFFF#32)) .w .rax - 1#16)) .d .rax == 0#32) = _
      rw [this, BitVec.and_self]
      congr 1
      show _ = StringOps.rdIdx false (StringOps.wrIdx false _ _)
      rw [StringOps.rd_wr]
      rfl
  · sexec [hc, ↓run_stIdx]
    refine ⟨_, rfl, ?_⟩
    sexec [hc]
    refine ⟨trivial, rfl, ?_⟩
    rw [BitVec.and_self]
    rfl

theorem ldZf_res (s : Flags.St) : Flags.ldZf s = s.res := rfl

theorem rep_run (e : Env) (x : StrInsn) (n : Nat) (r : StringOps.Rep) (h : Host.St) (hc : h.r .rcx = e.ctx) :
    ∃ h', run e 0 (repCode x.a32 n r) h = .next (if more x r (dec x.a32 h.g) then n + 1 else n) h' ∧ h'.r .rcx = e.ctx ∧ h'.g = dec x.a32 h.g := by
  obtain ⟨h1, r1, c1, g1, z1⟩ := repCount_run e x.a32 h hc
  unfold repCode
  rw [run_append _ r1]
  unfold more
  rw [← z1, ← g1]
  cases r <;> unfold repJump <;> cases hz : h1.zf <;> dsimp only
  · sexec [hz]; exact ⟨h1, rfl, c1, rfl⟩
  · sexec [hz]; exact ⟨h1, rfl, c1, rfl⟩
  · sexec [hz, c1, BitVec.and_self, ldZf_res]
    rcases (Bool.eq_false_or_eq_true (h1.g.fl.res == 0#32)).symm with hr | hr
    · have hr' : (h1.g.fl.res == 0) = false := hr
      sexec [hr', hr, Bool.and_false]
      exact ⟨_, rfl, by sexec [c1], by sexec []⟩
    · have hr' : (h1.g.fl.res == 0) = true := hr
      sexec [hr', hr, Bool.and_true, Bool.not_false]
      exact ⟨_, rfl, by sexec [c1], by sexec []⟩
  · sexec [hz]; exact ⟨h1, rfl, c1, rfl⟩
  · sexec [hz, c1, BitVec.and_self, ldZf_res, bne]
    rcases (Bool.eq_false_or_eq_true (h1.g.fl.res == 0#32)).symm with hr | hr
    · have hr' : (h1.g.fl.res == 0) = false := hr
      sexec [hr', hr, Bool.and_true, Bool.not_false]
      exact ⟨_, rfl, by sexec [c1], by sexec []⟩
    · have hr' : (h1.g.fl.res == 0) = true := hr
      sexec [hr', hr, Bool.and_false, Bool.not_true]
      exact ⟨_, rfl, by sexec [c1], by sexec []⟩
  · sexec [hz]; exact ⟨h1, rfl, c1, rfl⟩

/-- The guest state after one turn. -/
def turned (e : Env) (x : StrInsn) (g : G) : G :=
  let g1 := slide x (g.fl.eflags.getLsbD 10) (mid e x g)
  if x.rep.isSome then dec x.a32 g1 else g1
/-- Whether there is another. -/
def strGoes (x : StrInsn) (g : G) : Bool := match x.rep with
  | some r => more x r g
  | none => false

theorem bit10 (v : BitVec 32) : (v &&& 0x400#32 == 0#32) = !v.getLsbD 10 := by
  rw [show 0x400#32 = BitVec.twoPow 32 10 from rfl, BitVec.and_twoPow]
  cases v.getLsbD 10 <;> rfl

theorem flip_ite (b : Bool) (n : Nat) : (if b = false then 0 else n) = if b = true then n else 0 := by cases b <;> rfl

theorem df_regs (i : StringOps.Instr) : dfReg i ≠ .rcx ∧ ∀ p ∈ idxRegs i, p.2 ≠ dfReg i := by
  cases i <;> decide

theorem mid_eflags (e : Env) (x : StrInsn) (g : G) : (mid e x g).fl.eflags = g.fl.eflags := by
  unfold mid
  cases x.i <;> rfl
theorem mid_idx (e : Env) (x : StrInsn) (g : G) (h : Host.St) (hh : Held x.i x.a32 g h) : Held x.i x.a32 (mid e x g) h := by
  unfold Held at *
  intro p hp
  rw [hh p hp]
  unfold mid
  cases hi : x.i <;> try rfl
  rw [hi] at hp
  cases hp with
  | head => rfl
  | tail _ hp => cases hp

theorem turn_run (e : Env) (x : StrInsn) (h : Host.St) (hx : StrOk e x) (hc : h.r .rcx = e.ctx) :
    (may e x h.g = true → ∃ h1, run e 0 (strTurn x) h = .next (if strGoes x (turned e x h.g) then 1 else 0) h1 ∧ h1.r .rcx = e.ctx ∧
      h1.g = turned e x h.g) ∧
    (may e x h.g = false → run e 0 (strTurn x) h = .fault h.g) := by
  have he := elem_run e x h hx hc
  refine ⟨fun hm => ?_, fun hm => run_append_fault _ (he.2 hm)⟩
  obtain ⟨h1, r1, c1, g1, k1⟩ := he.1 hm
  unfold strTurn
  rw [run_append _ r1]
  have k1' := mid_idx e x h.g h1 k1
  rw [← g1] at k1'
  have f1 : h1.g.fl.eflags = h.g.fl.eflags := by rw [g1]; exact mid_eflags e x h.g
  have ht : ∃ h2, run e 0 [.ldEfl (dfReg x.i), .alu .and .d (dfReg x.i) (.imm 0x400#64), .test .d (dfReg x.i) (dfReg x.i), .jne (fwd x).length] h1 =
      .next (if h.g.fl.eflags.getLsbD 10 then (fwd x).length else 0) h2 ∧ h2.r .rcx = e.ctx ∧ h2.g = h1.g ∧ Held x.i x.a32 h2.g h2 := by
    obtain ⟨hr, hp⟩ := df_regs x.i
    generalize dfReg x.i = r at hr hp
    have hr' : Reg.rcx ≠ r := Ne.symm hr
    have hb := bit10 h.g.fl.eflags
    rw [← f1] at hb ⊢
    have hb' : (h1.g.fl.eflags &&& BitVec.setWidth Sz.d.bits 1024#64 == 0) = !h1.g.fl.eflags.getLsbD 10 := hb
    sexec [c1, hr', BitVec.and_self, hb', Bool.not_eq_true']
    refine ⟨_, by rw [flip_ite], ?_, ?_, fun p hq => ?_⟩
    · sexec [c1, hr']
    · sexec []
    · have := k1' p hq
      sexec [hp p hq]
      exact this
  obtain ⟨h2, r2, c2, g2, k2⟩ := ht
  rw [run_append _ r2]
  unfold turned strGoes
  have hg : ∀ df, slide x df h2.g = slide x df (mid e x h.g) := fun df => by rw [g2, g1]
  cases hd : h.g.fl.eflags.getLsbD 10
  · rw [if_neg (by simp)]
    obtain ⟨h3, r3, c3, g3⟩ := move_run e x false h2 c2 k2
    unfold fwd
    rw [List.append_assoc, run_append _ (show run e 0 (moveCode x .add) h2 = _ from r3)]
    rw [hg] at g3
    unfold fwdEnd
    cases hr : x.rep with
    | none => 
      refine ⟨h3, ?_, c3, g3⟩
      show run e (bwd x).length (bwd x) h3 = _
      exact run_over e _ 0 h3
    | some r =>
      obtain ⟨h4, r4, c4, g4⟩ := rep_run e x (bwd x).length r h3 c3
      refine ⟨h4, ?_, c4, by rw [g4, g3]; rfl⟩
      rw [g3] at r4
      dsimp only
      rw [run_append _ r4]
      show run e _ _ _ = .next (if more x r (dec x.a32 (slide x false (mid e x h.g))) = true then 1 else 0) h4
      split
      · exact run_over e _ 1 h4
      · exact run_over e _ 0 h4
  · rw [if_pos rfl]
    obtain ⟨h3, r3, c3, g3⟩ := move_run e x true h2 c2 k2
    rw [run_append _ (show run e (fwd x).length (fwd x) h2 = .next 0 h2 from run_over e _ 0 h2)]
    unfold bwd
    rw [run_append _ (show run e 0 (moveCode x .sub) h2 = _ from r3)]
    rw [hg] at g3
    unfold bwdEnd
    cases hr : x.rep with
    | none => exact ⟨h3, rfl, c3, g3⟩
    | some r =>
      obtain ⟨h4, r4, c4, g4⟩ := rep_run e x 0 r h3 c3
      refine ⟨h4, ?_, c4, by rw [g4, g3]; rfl⟩
      rw [g3] at r4
      exact r4

end Verif.Emit
