import Verif.Props.Priv
/-
C85: along every program above level 0 the system registers stay as they are.
-/
namespace Verif.Priv
open Seg Seg.Spec Spec ModeP

/-- IOPL and VIP, with `b` also IF. -/
def mask (b : Bool) : BitVec 32 := if b then 0x103200#32 else 0x103000#32

theorem mask1 (b : Bool) : (mask b)[1] = false := by cases b <;> decide

/-- IF is protected in state `s`. -/
def IfOk (b : Bool) (s : St) : Prop := b = true → iopl s.c.r < level s.c.r

theorem iretMask_sys (b : Bool) (k : Nat) (r : Regs) (h : AgreeCore r) (hl : level r ≠ 0#2)
    (hb : b = true → iopl r < level r) : iretMask k r &&& mask b = 0#32 := by
  unfold iretMask
  rw [hcpl_level h, iopl_eq]
  change (let c := (level r).setWidth 32
    let m := if k = 2 then 0x4500#32 else if c = 0#32 then 0x254500#32 ||| 0x1A3000#32 else 0x254500#32
    if c ≤ (iopl r).setWidth 32 then m ||| 0x200#32 else m) &&& mask b = 0#32
  generalize level r = l at *
  generalize iopl r = p at *
  by_cases hk : k = 2
  · simp only [if_pos hk]
    clear h
    revert l p b; decide
  · simp only [if_neg hk]
    clear h
    revert l p b; decide

theorem popfMask_sys (b : Bool) (k : Nat) (s : St) (h : AgreeCore s.c.r) (hl : level s.c.r ≠ 0#2) (hb : IfOk b s) :
    popfMask s k &&& mask b = 0#32 := by
  have h0 := mode_level0 hl
  unfold popfMask ioplN
  rw [hcpl_level h, iopl_eq]
  unfold IfOk at hb
  change (let m : BitVec 32 := 0x4500#32
    if vm s then
      if (iopl s.c.r).setWidth 32 = 3#32 then (if k = 4 then m ||| 0x240200#32 else m ||| 0x200#32) else m
    else
      let m := if (level s.c.r).setWidth 32 = 0#32 then m ||| 0x3200#32
        else if (level s.c.r).setWidth 32 ≤ (iopl s.c.r).setWidth 32 then m ||| 0x200#32 else m
      if k = 4 then m ||| 0x240000#32 else m) &&& mask b = 0#32
  have hv : vm s = true → level s.c.r = 3#2 := by
    intro hv
    rw [vmb] at hv
    unfold level mode; rw [h0, hv]; rfl
  generalize vm s = w at *
  generalize level s.c.r = l at *
  generalize iopl s.c.r = p at *
  clear h h0
  by_cases hk : k = 4
  · simp only [if_pos hk]
    revert w l p b; decide
  · simp only [if_neg hk]
    revert w l p b; decide

theorem vmMask_sys (b : Bool) (k : Nat) (r : Regs) (hl : level r = 3#2) (hi : iopl r = 3#2)
    (hb : b = true → iopl r < level r) :
    (if k = 2 then 0x254700#32 &&& 0xFFFF#32 else 0x254700#32) &&& mask b = 0#32 := by
  cases b with
  | true => have := hb rfl; rw [hl, hi] at this; exact absurd this (by decide)
  | false =>
    by_cases hk : k = 2
    · rw [if_pos hk]; decide
    · rw [if_neg hk]; decide

/-- IRET that does not enter vm86 mode. -/
theorem iret_sys (acc : Acc) (b : Bool) (k : Nat) (s : Cpu) (h : AgreeCore s.r) (hl : level s.r ≠ 0#2)
    (hb : b = true → iopl s.r < level s.r) (s' : Cpu) (hr : instr acc (.iret k) s = .ok () s') (hm : mode s'.r = mode s.r) :
    KS (mask b) s.r s'.r := by
  have h0 := mode_level0 hl
  have hpe : s.r.hflags[4] = true := by rw [h.pe]; exact h0
  change (if s.r.hflags &&& H_PE ≠ 0#32 then _ else _ : M Unit) s = _ at hr
  rw [if_pos (pe_on hpe)] at hr
  have hks : KS (mask b) s.r s.r := rfl
  cases hv : s.r.eflags[17] with
  | true =>
    have hlv : level s.r = 3#2 := by unfold level mode; rw [h0, hv]; rfl
    have hv' : s.r.eflags &&& 0x20000#32 ≠ 0#32 := (and_ne_zero_bit s.r.eflags 0x20000#32 17 (by omega) rfl).2 hv
    unfold iretPe at hr
    rw [bind_getR, if_pos hv'] at hr
    by_cases hi : (s.r.eflags &&& 0x3000#32) >>> 12 = 3#32
    · rw [if_pos hi] at hr
      have hi3 := (iopl_is s.r).1 hi
      have key : Keeps (KS (mask b) s.r) (do
          let p ← popV acc k s.r.esp
          let q ← popV acc k p.2
          let e ← popV acc k q.2
          let m : BitVec 32 := 0x254700#32
          let m := if k = 2 then m &&& 0xFFFF#32 else m
          let sel : BitVec 16 := q.1.setWidth 16
          modR fun r => writeEflags e.1 m { r with
            esp := (r.esp &&& 0xFFFF0000#32) ||| (e.2 &&& 0xFFFF#32)
            eip := p.1
            cs := { r.cs with sel := sel, base := sel.setWidth 32 <<< 4 } }) := by
        have hmask := vmMask_sys b k s.r hlv hi3 hb
        dsimp only
        generalize (if k = 2 then 0x254700#32 &&& 0xFFFF#32 else 0x254700#32) = mm at hmask ⊢
        keepsAll
        refine keeps_modR fun r h => ?_
        exact ks_writeEflags (mask b) s.r _ _ _ hmask (mask1 b) h
      have := key.run s hks
      unfold iretReal at hr
      rw [bind_getR] at hr
      simp only [if_pos hv'] at hr
      rw [hr] at this
      exact this
    · rw [if_neg hi] at hr; cases hr
  | false =>
    have hv' : ¬ (s.r.eflags &&& 0x20000#32 ≠ 0#32) := fun x =>
      absurd ((and_ne_zero_bit s.r.eflags 0x20000#32 17 (by omega) rfl).1 x) (by rw [hv]; decide)
    have key : Oks (fun r => r = s.r) (fun r => r.eflags[17] = true ∨ KS (mask b) s.r r) (iretPe acc k) := by
      unfold iretPe
      refine oks_getR fun r hr => ?_
      subst hr
      rw [if_neg hv']
      refine oks_check fun _ => ?_
      refine oks_keeps_bind (keeps_popV ..) fun p1 => ?_
      refine oks_keeps_bind (keeps_popV ..) fun p2 => ?_
      refine oks_keeps_bind (keeps_popV ..) fun p3 => ?_
      refine oks_ite (fun hv => ?_) fun _ => ?_
      · unfold iretToVm86
        refine oks_keeps_bind (keeps_popV ..) fun q1 => ?_
        refine oks_keeps_bind (keeps_popV ..) fun q2 => ?_
        refine oks_keeps_bind (keeps_popV ..) fun q3 => ?_
        refine oks_keeps_bind (keeps_popV ..) fun q4 => ?_
        refine oks_keeps_bind (keeps_popV ..) fun q5 => ?_
        refine oks_keeps_bind (keeps_popV ..) fun q6 => ?_
        refine oks_modR fun r1 _ => .inl ?_
        dsimp only
        simp only [writeSegVm86_eflags]
        have := (and_ne_zero_bit p3.1 0x20000#32 17 (by omega) rfl).1 hv
        simp [writeEflags, this]
      · have kk := ks_retPe (mask b) s.r acc k p1.1 (p2.1.setWidth 16) p3.2 (some (p3.1, iretMask k s.r)) (mask1 b)
          (by intro v m hm; cases hm; exact iretMask_sys b k s.r h hl hb)
        constructor
        intro u a u' hp hr
        have := kk.run u (by rw [hp]; rfl)
        rw [hr] at this
        exact .inr this
    rcases key.run s () s' rfl hr with hx | hx
    · have : mode s.r = .prot := by unfold mode; rw [h0, hv]; rfl
      rw [this] at hm
      unfold mode at hm; rw [hx] at hm
      cases hc : s'.r.cr0[0] <;> rw [hc] at hm <;> cases hm
    · exact hx

/-- A privileged one does not complete. -/
theorem sys_priv (acc : Acc) (o : Op) (s : Cpu) (h : AgreeCore s.r) (hl : level s.r ≠ 0#2) (hx : Privileged (.sys o))
    (s' : Cpu) (hr : instr acc o s = .ok () s') : False := by
  have hc : s.r.hflags &&& H_CPL ≠ 0#32 := by
    rw [hcpl_level h]
    intro x
    apply hl
    generalize level s.r = l at x
    clear hl hr hx h
    revert l; decide
  cases o with
  | movCr i n =>
    have : movToCr s.r i n = .gp := by unfold movToCr; rw [if_pos hc]
    change (match movToCr s.r i n with | .gp => _ | .abort => _ | .ok r _ => _ : Seg.Res Unit) = _ at hr
    rw [this] at hr; cases hr
  | lmsw v =>
    have : Seg.lmsw s.r v = .gp := by unfold Seg.lmsw; rw [if_pos hc]
    change (match Seg.lmsw s.r v with | .gp => _ | .abort => _ | .ok r _ => _ : Seg.Res Unit) = _ at hr
    rw [this] at hr; cases hr
  | clts =>
    have : Seg.clts s.r = .gp := by unfold Seg.clts; rw [if_pos hc]
    change (match Seg.clts s.r with | .gp => _ | .abort => _ | .ok r _ => _ : Seg.Res Unit) = _ at hr
    rw [this] at hr; cases hr
  | ltr sel =>
    simp only [instr] at hr
    rw [bind_getR, bind_check] at hr
    split at hr
    · cases hr
    · rw [bind_check, if_pos (by simpa using hc)] at hr; cases hr
  | lldt sel =>
    simp only [instr] at hr
    rw [bind_getR, bind_check] at hr
    split at hr
    · cases hr
    · rw [bind_check, if_pos (by simpa using hc)] at hr; cases hr
  | _ => exact hx.elim

/-- A segmentation instruction that completes above level 0. -/
theorem sys_sys (acc : Acc) (b : Bool) (o : Op) (s : Cpu) (h : AgreeCore s.r) (hl : level s.r ≠ 0#2)
    (hb : b = true → iopl s.r < level s.r) (hx : Executed (.sys o)) (s' : Cpu) (hr : instr acc o s = .ok () s')
    (hm : (∃ k, o = .iret k) → mode s'.r = mode s.r) : KS (mask b) s.r s'.r := by
  have fin : ∀ {m : M Unit}, Keeps (KS (mask b) s.r) m → m s = .ok () s' → KS (mask b) s.r s'.r := by
    intro m hk hr
    have := hk.run s rfl
    rw [hr] at this
    exact this
  have kite : ∀ (c : Bool) {m n : M Unit}, Keeps (KS (mask b) s.r) m → Keeps (KS (mask b) s.r) n →
      Keeps (KS (mask b) s.r) (if c = true then m else n) := fun c m n h1 h2 => keeps_ite h1 h2
  cases o with
  | loadSeg i sel =>
    cases i with
    | cs => cases hr
    | _ =>
      refine fin (m := do let r ← getR; if peNotVm r then movSelPe acc _ sel else movSelReal _ sel) ?_ hr
      exact keeps_bind keeps_getR fun r => kite _ (ks_movSelPe ..) (ks_movSelReal ..)
  | farJmp sel k eip =>
    refine fin (m := do let r ← getR; if peNotVm r then ljmpPe acc sel k eip else farReal sel eip) ?_ hr
    exact keeps_bind keeps_getR fun r => kite _ (ks_ljmpPe ..) (ks_farReal ..)
  | farCall sel k eip ret =>
    refine fin (m := do let r ← getR; if peNotVm r then lcallPe acc sel eip k ret else farCallReal acc sel k eip ret) ?_ hr
    exact keeps_bind keeps_getR fun r => kite _ (ks_lcallPe ..) (ks_farCallReal ..)
  | farRet k =>
    refine fin (m := do let r ← getR; if peNotVm r then lretPe acc k else farRetReal acc k) ?_ hr
    exact keeps_bind keeps_getR fun r => kite _ (ks_lretPe _ _ _ _ (mask1 b)) (ks_farRetReal ..)
  | iret k => exact iret_sys acc b k s h hl hb s' hr (hm ⟨k, rfl⟩)
  | movCr i n => exact (sys_priv acc (.movCr i n) s h hl trivial s' hr).elim
  | lmsw v => exact (sys_priv acc (.lmsw v) s h hl trivial s' hr).elim
  | clts => exact (sys_priv acc .clts s h hl trivial s' hr).elim
  | ltr sel => exact (sys_priv acc (.ltr sel) s h hl trivial s' hr).elim
  | lldt sel => exact (sys_priv acc (.lldt sel) s h hl trivial s' hr).elim
  | event => exact hx.elim
  | sync => exact hx.elim

/-- The registers the mode bits depend on, and the mode bits, are the same. -/
structure SameMode (r r' : Regs) : Prop where
  hflags : r'.hflags = r.hflags
  cr0 : r'.cr0 = r.cr0
  cr4 : r'.cr4 = r.cr4
  cs : r'.cs = r.cs
  ss : r'.ss = r.ss
  vm : r'.eflags[17] = r.eflags[17]

theorem SameMode.mode {r r' : Regs} (h : SameMode r r') : mode r' = mode r := by
  unfold Seg.Spec.mode; simp only [h.cr0, h.vm]

theorem SameMode.level {r r' : Regs} (h : SameMode r r') : level r' = level r := by
  unfold Seg.Spec.level; rw [h.mode, h.cs]

theorem SameMode.agree {r r' : Regs} (h : SameMode r r') (ha : AgreeCore r) : AgreeCore r' := by
  constructor
  · rw [h.hflags, h.level]; exact ha.level
  · unfold code32; simp only [h.hflags, h.mode, h.cs]; exact ha.code32
  · unfold stack32; simp only [h.hflags, h.mode, h.ss]; exact ha.stack32
  · simp only [h.hflags, h.cr0]; exact ha.pe
  · simp only [h.hflags, h.cr0]; exact ha.em
  · simp only [h.hflags, h.cr0]; exact ha.ne
  · simp only [h.hflags, h.cr4]; exact ha.osfxsr
  · simp only [h.hflags, h.cr0]; exact ha.ts
  · simp only [h.hflags, h.cr4]; exact ha.osxmm
  · simp only [h.hflags, h.cr0]; exact ha.mp
  · simp only [h.hflags, h.cr4]; exact ha.vme
  · simp only [h.hflags, h.cr4]; exact ha.pvi

/-- What a completed instruction above level 0 does to one part of the state. -/
structure StepOk (b : Bool) (s t : St) : Prop where
  ks : KS (mask b) s.c.r t.c.r
  dbg : t.dbg = s.dbg
  msr : t.msr = s.msr

theorem setG_ok (b : Bool) (s : St) (g : Fin 8) (v : BitVec 32) : StepOk b s (setG g v s) ∧ SameMode s.c.r (setG g v s).c.r := by
  unfold setG
  split <;> exact ⟨⟨rfl, rfl, rfl⟩, ⟨rfl, rfl, rfl, rfl, rfl, rfl⟩⟩

theorem StepOk.trans {b : Bool} {s t u : St} (h1 : StepOk b s t) (h2 : StepOk b t u) : StepOk b s u :=
  ⟨h2.ks.trans h1.ks, h2.dbg.trans h1.dbg, h2.msr.trans h1.msr⟩

theorem SameMode.trans {r s t : Regs} (h1 : SameMode r s) (h2 : SameMode s t) : SameMode r t :=
  ⟨h2.hflags.trans h1.hflags, h2.cr0.trans h1.cr0, h2.cr4.trans h1.cr4, h2.cs.trans h1.cs, h2.ss.trans h1.ss, h2.vm.trans h1.vm⟩

theorem setFl_ok (b : Bool) (s : St) (f : BitVec 32 → BitVec 32) (h : f s.c.r.eflags &&& mask b = s.c.r.eflags &&& mask b)
    (hv : (f s.c.r.eflags)[17] = s.c.r.eflags[17]) : StepOk b s (setFl f s) ∧ SameMode s.c.r (setFl f s).c.r := by
  refine ⟨⟨?_, rfl, rfl⟩, ⟨rfl, rfl, rfl, rfl, rfl, hv⟩⟩
  unfold KS sysOf setFl
  dsimp only
  rw [h]

theorem vif_mask (b : Bool) (e v : BitVec 32) : ((e &&& ~~~0x80000#32) ||| (v &&& 0x200#32) <<< 10) &&& mask b = e &&& mask b := by
  cases b
  · show _ &&& 0x103000#32 = _ &&& 0x103000#32
    bits32
  · show _ &&& 0x103200#32 = _ &&& 0x103200#32
    bits32

theorem act_if {s : St} (h : AgreeCore s.c.r) (hl : level s.c.r ≠ 0#2) (ha : ifAct s = .iflag) : level s.c.r ≤ iopl s.c.r := by
  have h0 := mode_level0 hl
  have hpe : pe s = true := by
    have : s.c.r.hflags[4] = true := by rw [h.pe]; exact h0
    have := (and_ne_zero_bit s.c.r.hflags H_PE 4 (by omega) rfl).2 this
    simpa [pe] using this
  unfold ifAct at ha
  rw [hpe, if_pos rfl] at ha
  by_cases hc : s.c.r.hflags &&& H_CPL ≤ ioplN s
  · unfold ioplN at hc
    rw [hcpl_level h, iopl_eq, le2_32] at hc
    exact hc
  · rw [if_neg hc] at ha
    split at ha <;> cases ha

theorem if_mask (b : Bool) (s : St) (hl : level s.c.r ≤ iopl s.c.r) (hb : IfOk b s) : b = false := by
  cases b with
  | false => rfl
  | true =>
    have := hb rfl
    rw [BitVec.lt_def] at this
    rw [BitVec.le_def] at hl
    omega

theorem popfRegs_ok (b : Bool) (s : St) (k : Nat) (v esp : BitVec 32) (h : AgreeCore s.c.r) (hl : level s.c.r ≠ 0#2) (hb : IfOk b s) :
    KS (mask b) s.c.r (popfRegs s k v esp) ∧ SameMode s.c.r (popfRegs s k v esp) := by
  have hm := popfMask_sys b k s h hl hb
  have h17 : (popfMask s k).getLsbD 17 = false := by
    unfold popfMask
    dsimp only
    (repeat' split) <;> rfl
  rw [BitVec.getLsbD_eq_getElem (by omega)] at h17
  unfold popfRegs
  dsimp only
  have aux : ∀ r : Regs, r = { s.c.r with esp := esp } → KS (mask b) s.c.r (if (vm s && ioplN s != 3#32) = true then vifOf v r else r) ∧
      SameMode s.c.r (if (vm s && ioplN s != 3#32) = true then vifOf v r else r) := by
    intro r hr
    subst hr
    split
    · refine ⟨?_, ⟨rfl, rfl, rfl, rfl, rfl, ?_⟩⟩
      · unfold KS sysOf vifOf
        dsimp only
        rw [vif_mask]
      · unfold vifOf
        simp [BitVec.getElem_or, BitVec.getElem_and, BitVec.getElem_not, BitVec.getElem_shiftLeft]
    · exact ⟨rfl, ⟨rfl, rfl, rfl, rfl, rfl, rfl⟩⟩
  have hk := aux _ rfl
  generalize (if (vm s && ioplN s != 3#32) = true then vifOf v { s.c.r with esp := esp } else { s.c.r with esp := esp }) = r1 at hk
  refine ⟨ks_writeEflags (mask b) s.c.r v _ r1 hm (mask1 b) hk.1, hk.2.trans ⟨rfl, rfl, rfl, rfl, rfl, ?_⟩⟩
  unfold writeEflags
  dsimp only
  rw [BitVec.getElem_or, BitVec.getElem_or, BitVec.getElem_and, BitVec.getElem_and, BitVec.getElem_not, h17]
  simp

/-- Everything but the instructions of Model/Step. -/
theorem other_ok (acc : Acc) (b : Bool) (i : Instr) (s t : St) (h : AgreeCore s.c.r) (hl : level s.c.r ≠ 0#2) (hb : IfOk b s)
    (hi : ∀ o, i ≠ .sys o) (e : step acc i s = .done t) : StepOk b s t ∧ SameMode s.c.r t.c.r := by
  have hu := user_true h hl
  have hpriv : Privileged i → False := by
    intro hp
    by_cases hg : OnDebugReg i ∧ s.dbg.dr7[13] = true
    · obtain ⟨d, hd, _⟩ := C85_gd acc s i hg.1 hg.2
      rw [hd] at e; cases e
    · have := C85_privileged_partial acc s i h hl hp fun ho => by
        cases hx : s.dbg.dr7[13] with
        | false => rfl
        | true => exact absurd ⟨ho, hx⟩ hg
      by_cases hv : NotInVm86 i ∧ mode s.c.r = .vm86
      · rw [this.1 hv.1 hv.2] at e; cases e
      · rw [this.2 hv] at e; cases e
  cases i with
  | sys o => exact absurd rfl (hi o)
  | hlt => exact (hpriv trivial).elim
  | wbinvd => exact (hpriv trivial).elim
  | invlpg a => exact (hpriv trivial).elim
  | rdmsr => exact (hpriv trivial).elim
  | wrmsr => exact (hpriv trivial).elim
  | lgdt idt w a => exact (hpriv trivial).elim
  | fromCr a g => exact (hpriv trivial).elim
  | fromDr a g => exact (hpriv trivial).elim
  | toDr a g => exact (hpriv trivial).elim
  | rdtsc c =>
    change Priv.rdtsc c s = _ at e
    unfold Priv.rdtsc at e
    split at e
    · cases e
    · cases e
      have h1 := setG_ok b s 0 (c.setWidth 32)
      have h2 := setG_ok b (setG 0 (c.setWidth 32) s) 2 ((c >>> 32).setWidth 32)
      exact ⟨h1.1.trans h2.1, h1.2.trans h2.2⟩
  | sgdt idt a =>
    change lift s (Seg.sgdt acc idt a) = _ at e
    have hk : Keeps (fun r => r = s.c.r) (Seg.sgdt acc idt a) := by
      unfold Seg.sgdt; keepsAll
    have := hk.run s.c rfl
    unfold lift at e
    cases hr : Seg.sgdt acc idt a s.c with
    | stop x c => rw [hr] at e; cases e
    | ok u c =>
      rw [hr] at e this
      cases e
      have hcr : c.r = s.c.r := this
      exact ⟨⟨by show KS _ _ c.r; rw [hcr]; rfl, rfl, rfl⟩, by show SameMode _ c.r; rw [hcr]; exact ⟨rfl, rfl, rfl, rfl, rfl, rfl⟩⟩
  | cli =>
    change Priv.cli s = _ at e
    unfold Priv.cli at e
    cases ha : ifAct s with
    | iflag =>
      rw [ha] at e
      cases e
      have hbf := if_mask b s (act_if h hl ha) hb
      subst hbf
      refine setFl_ok false s _ ?_ ?_
      · show _ &&& 0x103000#32 = _ &&& 0x103000#32
        bits32
      · simp
    | vif =>
      rw [ha] at e
      cases e
      refine setFl_ok b s _ ?_ ?_
      · cases b
        · show _ &&& 0x103000#32 = _ &&& 0x103000#32
          bits32
        · show _ &&& 0x103200#32 = _ &&& 0x103200#32
          bits32
      · simp
    | gp => rw [ha] at e; cases e
  | sti =>
    change Priv.sti s = _ at e
    unfold Priv.sti at e
    have hsh : ∀ old x, (shadow old x).c = x.c ∧ (shadow old x).dbg = x.dbg ∧ (shadow old x).msr = x.msr := by
      intro old x; unfold shadow; split <;> exact ⟨rfl, rfl, rfl⟩
    have wrap : ∀ {x : St} (old : BitVec 32), (StepOk b s x ∧ SameMode s.c.r x.c.r) →
        (StepOk b s (shadow old x) ∧ SameMode s.c.r (shadow old x).c.r) := by
      intro x old hx
      obtain ⟨h1, h2, h3⟩ := hsh old x
      exact ⟨⟨by rw [h1]; exact hx.1.ks, h2.trans hx.1.dbg, h3.trans hx.1.msr⟩, by rw [h1]; exact hx.2⟩
    cases ha : ifAct s with
    | iflag =>
      rw [ha] at e
      cases e
      have hbf := if_mask b s (act_if h hl ha) hb
      subst hbf
      refine wrap _ (setFl_ok false s _ ?_ ?_)
      · show _ &&& 0x103000#32 = _ &&& 0x103000#32
        bits32
      · simp
    | vif =>
      rw [ha] at e
      dsimp only at e
      split at e
      · cases e
      · cases e
        refine wrap _ (setFl_ok b s _ ?_ ?_)
        · cases b
          · show _ &&& 0x103000#32 = _ &&& 0x103000#32
            bits32
          · show _ &&& 0x103200#32 = _ &&& 0x103200#32
            bits32
        · simp
    | gp => rw [ha] at e; cases e
  | popf k =>
    change Priv.popf acc k s = _ at e
    unfold Priv.popf at e
    split at e
    · cases e
    · cases hp : Stack.popVal (okOf acc s) (view s) k with
      | none => rw [hp] at e; cases e
      | some q =>
        rw [hp] at e
        dsimp only at e
        split at e
        · cases e
        · cases e
          have := popfRegs_ok b s k (BitVec.ofNat 32 q.1) q.2 h hl hb
          exact ⟨⟨this.1, rfl, rfl⟩, this.2⟩
  | pushf k =>
    change Priv.pushf acc k s = _ at e
    unfold Priv.pushf at e
    split at e
    · cases e
    · cases hp : Stack.push (okOf acc s) (view s) k (pushfVal s k).toNat with
      | none => rw [hp] at e; cases e
      | some q =>
        rw [hp] at e
        cases e
        exact ⟨⟨rfl, rfl, rfl⟩, ⟨rfl, rfl, rfl, rfl, rfl, rfl⟩⟩
  | plain f a d sp ip m =>
    cases e
    refine ⟨⟨?_, rfl, rfl⟩, ⟨rfl, rfl, rfl, rfl, rfl, ?_⟩⟩
    · have : (if d = true then s.c.r.eflags ||| 0x400#32 else s.c.r.eflags &&& ~~~0x400#32) &&& mask b = s.c.r.eflags &&& mask b := by
        cases d <;> cases b
        · show (_ &&& _) &&& 0x103000#32 = _ &&& 0x103000#32
          bits32
        · show (_ &&& _) &&& 0x103200#32 = _ &&& 0x103200#32
          bits32
        · show (_ ||| _) &&& 0x103000#32 = _ &&& 0x103000#32
          bits32
        · show (_ ||| _) &&& 0x103200#32 = _ &&& 0x103200#32
          bits32
      unfold KS sysOf plainRegs
      dsimp only
      rw [this]
    · unfold plainRegs
      dsimp only
      cases d <;> simp

theorem cs_writeSeg (c : SegReg) (i : SR) (hi : i ≠ .cs) (sel : BitVec 16) (b l f : BitVec 32) (r : Regs) (h : r.cs = c) :
    (writeSeg i sel b l f r).cs = c := by cases i <;> first | exact absurd rfl hi | exact h

theorem cs_movSelPe (c : SegReg) (acc : Acc) (i : SR) (hi : i ≠ .cs) (sel : BitVec 16) : Keeps (fun r => r.cs = c) (movSelPe acc i sel) := by
  cases i
  case cs => exact absurd rfl hi
  all_goals
    unfold movSelPe; keepsAll <;>
    exact keeps_modR fun r h => cs_writeSeg _ _ (by intro x; cases x) _ _ _ _ r h

theorem oks_lretPe' (acc : Acc) (k : Nat) (r0 : Regs) (hp : Prot false r0) :
    Oks (fun r => r = r0) (fun r => ∃ cs, AfterRet r0 cs r) (lretPe acc k) := by
  unfold lretPe
  refine oks_getR fun r hr => ?_
  subst hr
  refine oks_keeps_bind (keeps_popV ..) fun p1 => ?_
  refine oks_keeps_bind (keeps_popV ..) fun p2 => ?_
  exact oks_mono (oks_retPe acc k _ _ _ _ r hp) fun r h => ⟨_, h⟩

/-- Far calls. -/
def isFarCall : Instr → Bool
  | .sys (.farCall ..) => true
  | _ => false

/-- In protected mode the level does not decrease, far calls apart. -/
theorem sys_level (acc : Acc) (o : Op) (s : Cpu) (h : AgreeCore s.r) (hl : level s.r ≠ 0#2) (hx : Executed (.sys o))
    (hf : isFarCall (.sys o) = false) (s' : Cpu) (hr : instr acc o s = .ok () s') (hm : mode s'.r = mode s.r) :
    level s.r ≤ level s'.r := by
  have h0 := mode_level0 hl
  have hcase : mode s.r = .vm86 ∨ mode s.r = .prot := by
    unfold mode; rw [h0]; cases s.r.eflags[17] <;> simp
  rcases hcase with hv | hv
  · have e1 : level s.r = 3#2 := by unfold level; rw [hv]
    have e2 : level s'.r = 3#2 := by unfold level; rw [hm, hv]
    rw [e1, e2]; exact BitVec.le_refl _
  · have hp := prot_of h hv
    have l1 : level s.r = s.r.cs.sel.setWidth 2 := by unfold level; rw [hv]
    have l2 : level s'.r = s'.r.cs.sel.setWidth 2 := by unfold level; rw [hm, hv]
    have same : s'.r.cs.sel.setWidth 2 = level s.r → level s.r ≤ level s'.r := by
      intro e; rw [l2, e]; exact BitVec.le_refl _
    have ret : (∃ cs, AfterRet s.r cs s'.r) → level s.r ≤ level s'.r := by
      rintro ⟨cs, ha⟩
      have hle := ha.le
      rw [cpl_level h, rpl_eq, lt2] at hle
      rw [l2, ha.sel]
      rw [BitVec.lt_def] at hle
      rw [BitVec.le_def]
      unfold Seg.Spec.rpl at hle
      omega
    have hne : ∀ (m : M Unit), (∀ c, Keeps (fun r => r.cs = c) m) → m s = .ok () s' → level s.r ≤ level s'.r := by
      intro m hk hr
      have := (hk s.r.cs).run s rfl
      rw [hr] at this
      have hc : s'.r.cs = s.r.cs := this
      exact same (by rw [hc, l1])
    cases o with
    | loadSeg i sel =>
      cases i with
      | cs => cases hr
      | _ =>
        change (if peNotVm s.r = true then movSelPe acc _ sel else movSelReal _ sel : M Unit) s = _ at hr
        rw [peNotVm_prot hp, if_pos rfl] at hr
        exact hne _ (fun c => cs_movSelPe c acc _ (by intro x; cases x) sel) hr
    | farJmp sel k eip =>
      change (if peNotVm s.r = true then ljmpPe acc sel k eip else farReal sel eip : M Unit) s = _ at hr
      rw [peNotVm_prot hp, if_pos rfl] at hr
      have hd := (from_ljmp acc sel k eip s h).run () s' hr
      cases hs : Seg.Spec.isSeg (descAt s sel) with
      | true =>
        refine same ?_
        rw [(hd.direct hs).2.1.sel, withRpl_low]
      | false =>
        refine same ?_
        rw [(hd.gate hs).2.2.2.sel, withRpl_low]
    | farCall sel k eip ret => cases hf
    | farRet k =>
      change (if peNotVm s.r = true then lretPe acc k else farRetReal acc k : M Unit) s = _ at hr
      rw [peNotVm_prot hp, if_pos rfl] at hr
      exact ret ((oks_lretPe' acc k s.r hp).run s () s' rfl hr)
    | iret k =>
      change (if s.r.hflags &&& H_PE ≠ 0#32 then _ else _ : M Unit) s = _ at hr
      rw [if_pos (pe_on hp.pe)] at hr
      rcases (oks_iretPe acc k s.r hp).run s () s' rfl hr with hv' | hv'
      · rw [hv] at hm
        unfold mode at hm
        rw [hv'] at hm
        split at hm <;> cases hm
      · exact ret hv'
    | movCr i n => exact (sys_priv acc (.movCr i n) s h hl trivial s' hr).elim
    | lmsw v => exact (sys_priv acc (.lmsw v) s h hl trivial s' hr).elim
    | clts => exact (sys_priv acc .clts s h hl trivial s' hr).elim
    | ltr sel => exact (sys_priv acc (.ltr sel) s h hl trivial s' hr).elim
    | lldt sel => exact (sys_priv acc (.lldt sel) s h hl trivial s' hr).elim
    | event => exact hx.elim
    | sync => exact hx.elim

/-- The mode bits agree after a completed instruction above level 0, too. -/
theorem step_agree (acc : Acc) (i : Instr) (s t : St) (h : AgreeCore s.c.r) (hl : level s.c.r ≠ 0#2) (hx : Executed i)
    (e : step acc i s = .done t) : AgreeCore t.c.r := by
  by_cases hi : ∃ o, i = .sys o
  · obtain ⟨o, rfl⟩ := hi
    change lift s (instr acc o) = _ at e
    unfold lift at e
    have h0 := mode_level0 hl
    have hco : Coherent false s.c.r := (coherent_false _).2 ⟨h, fun x => by rw [h0] at x; cases x⟩
    have := exec_core acc (fun _ => (0#16, 0#32)) o s.c hco (by
      intro hs
      cases o <;> first | exact hx.elim | cases hs)
    cases hr : instr acc o s.c with
    | stop x c => rw [hr] at e; cases e
    | ok u c =>
      rw [hr] at e
      cases e
      have he : exec acc (fun _ => (0#16, 0#32)) o s.c = .done c := by
        cases o <;> first | exact hx.elim | (unfold exec; dsimp only; rw [hr])
      rw [he] at this
      exact ((coherent_false _).1 this).1
  · exact (other_ok acc false i s t h hl (by intro x; cases x) (fun o ho => hi ⟨o, ho⟩) e).2.agree h

theorem step_ok (acc : Acc) (b : Bool) (i : Instr) (s t : St) (h : AgreeCore s.c.r) (hl : level s.c.r ≠ 0#2) (hx : Executed i)
    (hb : IfOk b s) (hm : mode t.c.r = mode s.c.r) (e : step acc i s = .done t) : StepOk b s t := by
  by_cases hi : ∃ o, i = .sys o
  · obtain ⟨o, rfl⟩ := hi
    change lift s (instr acc o) = _ at e
    unfold lift at e
    cases hr : instr acc o s.c with
    | stop x c => rw [hr] at e; cases e
    | ok u c =>
      rw [hr] at e
      cases e
      exact ⟨sys_sys acc b o s.c h hl hb hx c hr (fun _ => hm), rfl, rfl⟩
  · exact (other_ok acc b i s t h hl hb (fun o ho => hi ⟨o, ho⟩) e).1

theorem step_level (acc : Acc) (i : Instr) (s t : St) (h : AgreeCore s.c.r) (hl : level s.c.r ≠ 0#2) (hx : Executed i)
    (hf : isFarCall i = false) (hm : mode t.c.r = mode s.c.r) (e : step acc i s = .done t) : level s.c.r ≤ level t.c.r := by
  by_cases hi : ∃ o, i = .sys o
  · obtain ⟨o, rfl⟩ := hi
    change lift s (instr acc o) = _ at e
    unfold lift at e
    cases hr : instr acc o s.c with
    | stop x c => rw [hr] at e; cases e
    | ok u c =>
      rw [hr] at e
      cases e
      exact sys_level acc o s.c h hl hx hf c hr hm
  · rw [(other_ok acc false i s t h hl (by intro x; cases x) (fun o ho => hi ⟨o, ho⟩) e).2.level]
    exact BitVec.le_refl _

theorem iopl_and (e : BitVec 32) : (e.extractLsb' 12 2 : BitVec 2) = ((e &&& 0x103000#32).extractLsb' 12 2) := by
  apply BitVec.eq_of_getLsbD_eq
  intro i hi
  have : i = 0 ∨ i = 1 := by omega
  rcases this with rfl | rfl <;> simp

theorem ks_false {t r : Regs} (h : KS (mask false) t r) : iopl r = iopl t ∧ r.eflags[20] = t.eflags[20] := by
  have he : r.eflags &&& 0x103000#32 = t.eflags &&& 0x103000#32 := by
    unfold KS sysOf at h
    simp only [Prod.mk.injEq] at h
    exact h.2.2.2.2.2.2
  refine ⟨?_, ?_⟩
  · unfold iopl; rw [iopl_and, he, ← iopl_and]
  · have := congrArg (fun x : BitVec 32 => x[20]) he
    simpa using this

theorem same_of (s t : St) (h : StepOk false s t) : SameSystem s t := by
  have hk := h.ks
  have := ks_false hk
  unfold KS sysOf at hk
  simp only [Prod.mk.injEq] at hk
  obtain ⟨h1, h2, h3, h4, ⟨h5, h6, h7, h8⟩, ⟨h9, h10, h11⟩, _⟩ := hk
  exact ⟨h1, h2, h3, h4, h5, h6, h7, h8, h9, h10, h11, h.dbg, h.msr, this.1, this.2⟩

theorem if_of (s t : St) (h : StepOk true s t) : t.c.r.eflags[9] = s.c.r.eflags[9] := by
  have hk := h.ks
  unfold KS sysOf at hk
  simp only [Prod.mk.injEq] at hk
  have := congrArg (fun x : BitVec 32 => x[9]) hk.2.2.2.2.2.2
  simpa [mask] using this

theorem Spec.SameSystem.trans {s t u : St} (h1 : SameSystem s t) (h2 : SameSystem t u) : SameSystem s u :=
  ⟨h2.cr0.trans h1.cr0, h2.cr2.trans h1.cr2, h2.cr3.trans h1.cr3, h2.cr4.trans h1.cr4, h2.gdtBase.trans h1.gdtBase,
   h2.gdtLimit.trans h1.gdtLimit, h2.idtBase.trans h1.idtBase, h2.idtLimit.trans h1.idtLimit, h2.ldtr.trans h1.ldtr,
   h2.tr.trans h1.tr, h2.dr7.trans h1.dr7, h2.dbg.trans h1.dbg, h2.msr.trans h1.msr, h2.iopl.trans h1.iopl, h2.vip.trans h1.vip⟩

/-- A program of any length in which every instruction completes, is executed above level 0 and does not enter vm86 mode leaves
the system registers as they were.  Missing: IRET to vm86 mode (`C78_escalation_violation`: IOPL is taken from the stack). -/
theorem C85_isolation_partial (acc : Acc) (s s' : St) (is : List Instr) (h : AgreeCore s.c.r)
    (r : Runs acc (fun s i t => Executed i ∧ level s.c.r ≠ 0#2 ∧ mode t.c.r = mode s.c.r) s is s') : SameSystem s s' := by
  induction r with
  | nil s => exact ⟨rfl, rfl, rfl, rfl, rfl, rfl, rfl, rfl, rfl, rfl, rfl, rfl, rfl, rfl, rfl⟩
  | cons hp e _ ih =>
    obtain ⟨hx, hl, hm⟩ := hp
    exact (same_of _ _ (step_ok acc false _ _ _ h hl hx (by intro x; cases x) hm e)).trans (ih (step_agree acc _ _ _ h hl hx e))

/-- The same for the interrupt flag, while the program runs above IOPL. -/
theorem C85_interrupt_flag_partial (acc : Acc) (s s' : St) (is : List Instr) (h : AgreeCore s.c.r)
    (r : Runs acc (fun s i t => Executed i ∧ iopl s.c.r < level s.c.r ∧ mode t.c.r = mode s.c.r) s is s') :
    s'.c.r.eflags[9] = s.c.r.eflags[9] := by
  induction r with
  | nil s => rfl
  | cons hp e _ ih =>
    obtain ⟨hx, hi, hm⟩ := hp
    have hl : level _ ≠ 0#2 := fun x => by
      rw [x] at hi; exact absurd hi (by rw [BitVec.lt_def]; simp)
    exact (ih (step_agree acc _ _ _ h hl hx e)).trans (if_of _ _ (step_ok acc true _ _ _ h hl hx (fun _ => hi) hm e))

/-- Without far calls the level cannot become more privileged, so that a program that starts above level 0 (and does not enter
vm86 mode) stays above level 0 and leaves the system registers alone; if it starts above IOPL it leaves IF alone, too. -/
theorem C85_confined_partial (acc : Acc) (s s' : St) (is : List Instr) (h : AgreeCore s.c.r) (hl : level s.c.r ≠ 0#2)
    (r : Runs acc (fun s i t => Executed i ∧ isFarCall i = false ∧ mode t.c.r = mode s.c.r) s is s') :
    level s.c.r ≤ level s'.c.r ∧ SameSystem s s' ∧ (iopl s.c.r < level s.c.r → s'.c.r.eflags[9] = s.c.r.eflags[9]) := by
  induction r with
  | nil s => exact ⟨BitVec.le_refl _, ⟨rfl, rfl, rfl, rfl, rfl, rfl, rfl, rfl, rfl, rfl, rfl, rfl, rfl, rfl, rfl⟩, fun _ => rfl⟩
  | @cons s t u i is hp e _ ih =>
    obtain ⟨hx, hf, hm⟩ := hp
    have hle := step_level acc _ _ _ h hl hx hf hm e
    have hl' : level t.c.r ≠ 0#2 := by
      intro x
      rw [x, BitVec.le_def] at hle
      apply hl
      apply BitVec.eq_of_toNat_eq
      simpa using hle
    have hs := same_of _ _ (step_ok acc false _ _ _ h hl hx (by intro x; cases x) hm e)
    obtain ⟨a, b, c⟩ := ih (step_agree acc _ _ _ h hl hx e) hl'
    refine ⟨?_, hs.trans b, fun hi => ?_⟩
    · rw [BitVec.le_def] at *; omega
    · refine (c ?_).trans (if_of _ _ (step_ok acc true _ _ _ h hl hx (fun _ => hi) hm e))
      rw [hs.iopl]
      rw [BitVec.le_def] at hle
      rw [BitVec.lt_def] at *
      omega

theorem ks0_writeEflags (t : Regs) (e m : BitVec 32) (r : Regs) (h : KS 0#32 t r) : KS 0#32 t (writeEflags e m r) :=
  ks_writeEflags 0#32 t e m r BitVec.and_zero rfl h

theorem ks0_iretReal (t : Regs) (acc : Acc) (k : Nat) : Keeps (KS 0#32 t) (iretReal acc k) := by
  unfold iretReal; keepsAll
  all_goals exact keeps_modR fun r h => ks0_writeEflags t _ _ _ h

theorem ks0_iretToVm86 (t : Regs) (acc : Acc) (eip : BitVec 32) (cs : BitVec 16) (e sp : BitVec 32) :
    Keeps (KS 0#32 t) (iretToVm86 acc eip cs e sp) := by
  unfold iretToVm86; keepsAll
  refine keeps_modR fun r h => ?_
  have sg : ∀ i sel r, KS 0#32 t r → KS 0#32 t (writeSegVm86 i sel r) := fun i sel r h => ks_writeSeg 0#32 t i _ _ _ _ r h
  have fin : ∀ (r : Regs) (x y z : BitVec 32), KS 0#32 t r → KS 0#32 t { r with esp := x, eip := y, hflags := z } := fun _ _ _ _ h => h
  exact fin _ _ _ _ (sg _ _ _ (sg _ _ _ (sg _ _ _ (sg _ _ _ (sg _ _ _ (sg _ _ _ (ks0_writeEflags t _ _ _ h)))))))

theorem ks0_iretPe (t : Regs) (acc : Acc) (k : Nat) : Keeps (KS 0#32 t) (iretPe acc k) := by
  unfold iretPe
  keepsAll
  · exact ks0_iretReal t acc k
  · exact ks0_iretToVm86 t acc _ _ _ _
  · exact ks_retPe 0#32 t acc k _ _ _ _ rfl (fun _ _ _ => BitVec.and_zero)

theorem ks0_of {t r : Regs} (h : KS (mask false) t r) : KS 0#32 t r := by
  unfold KS sysOf at *
  simp only [Prod.mk.injEq] at *
  refine ⟨h.1, h.2.1, h.2.2.1, h.2.2.2.1, h.2.2.2.2.1, h.2.2.2.2.2.1, ?_⟩
  rw [BitVec.and_zero, BitVec.and_zero]

/-- One instruction, IRET to vm86 mode included. -/
theorem step_regs (acc : Acc) (i : Instr) (s t : St) (h : AgreeCore s.c.r) (hl : level s.c.r ≠ 0#2) (hx : Executed i)
    (e : step acc i s = .done t) : SameRegisters s t := by
  have fin : KS 0#32 s.c.r t.c.r → t.dbg = s.dbg → t.msr = s.msr → SameRegisters s t := by
    intro hk h1 h2
    unfold KS sysOf at hk
    simp only [Prod.mk.injEq] at hk
    obtain ⟨a, b, c, d, ⟨e, f, g, h⟩, ⟨i, j, k⟩, _⟩ := hk
    exact ⟨a, b, c, d, e, f, g, h, i, j, k, h1, h2⟩
  by_cases hi : ∃ k, i = .sys (.iret k)
  · obtain ⟨k, rfl⟩ := hi
    change lift s (instr acc (.iret k)) = _ at e
    unfold lift at e
    cases hr : instr acc (.iret k) s.c with
    | stop x c => rw [hr] at e; cases e
    | ok u c =>
      rw [hr] at e
      cases e
      refine fin ?_ rfl rfl
      have hk : Keeps (KS 0#32 s.c.r) (do let r ← getR; if r.hflags &&& H_PE ≠ 0#32 then iretPe acc k else iretReal acc k) :=
        keeps_bind keeps_getR fun r => keeps_ite (ks0_iretPe _ acc k) (ks0_iretReal _ acc k)
      have := hk.run s.c rfl
      change Ends (KS 0#32 s.c.r) (instr acc (.iret k) s.c) at this
      rw [hr] at this
      exact this
  · by_cases ho : ∃ o, i = .sys o
    · obtain ⟨o, rfl⟩ := ho
      change lift s (instr acc o) = _ at e
      unfold lift at e
      cases hr : instr acc o s.c with
      | stop x c => rw [hr] at e; cases e
      | ok u c =>
        rw [hr] at e
        cases e
        refine fin (ks0_of (sys_sys acc false o s.c h hl (by intro x; cases x) hx c hr ?_)) rfl rfl
        rintro ⟨k, rfl⟩
        exact absurd ⟨k, rfl⟩ hi
    · have := (other_ok acc false i s t h hl (by intro x; cases x) (fun o x => ho ⟨o, x⟩) e).1
      exact fin (ks0_of this.ks) this.dbg this.msr

theorem Spec.SameRegisters.trans {s t u : St} (h1 : SameRegisters s t) (h2 : SameRegisters t u) : SameRegisters s u :=
  ⟨h2.cr0.trans h1.cr0, h2.cr2.trans h1.cr2, h2.cr3.trans h1.cr3, h2.cr4.trans h1.cr4, h2.gdtBase.trans h1.gdtBase,
   h2.gdtLimit.trans h1.gdtLimit, h2.idtBase.trans h1.idtBase, h2.idtLimit.trans h1.idtLimit, h2.ldtr.trans h1.ldtr,
   h2.tr.trans h1.tr, h2.dr7.trans h1.dr7, h2.dbg.trans h1.dbg, h2.msr.trans h1.msr⟩

/-- A program of any length, every instruction of which completes and is executed above level 0 (IRET to vm86 mode included), leaves
control registers, descriptor table registers, LDTR, TR, debug registers and MSRs as they were. -/
theorem C85_registers (acc : Acc) (s s' : St) (is : List Instr) (h : AgreeCore s.c.r)
    (r : Runs acc (fun s i _ => Executed i ∧ level s.c.r ≠ 0#2) s is s') : SameRegisters s s' := by
  induction r with
  | nil s => exact ⟨rfl, rfl, rfl, rfl, rfl, rfl, rfl, rfl, rfl, rfl, rfl, rfl, rfl⟩
  | cons hp e _ ih =>
    exact (step_regs acc _ _ _ h hp.2 hp.1 e).trans (ih (step_agree acc _ _ _ h hp.2 hp.1 e))

end Verif.Priv
