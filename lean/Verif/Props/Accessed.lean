import Verif.Props.InnerStack
/-
C93: the accessed bit of a segment descriptor is set when the segment is loaded, and nothing else is written.
-/
namespace Verif.Seg
open Guest (load store load_lt)
open Spec

namespace AccP

/-- `m` changes nothing. -/
def Ro {α : Type} (m : M α) : Prop := ∀ s a s', m s = .ok a s' → s' = s

theorem ro_pure {α : Type} (a : α) : Ro (pure a : M α) := fun _ _ _ h => by cases h; rfl
theorem ro_bind {α β : Type} {m : M α} {f : α → M β} (h1 : Ro m) (h2 : ∀ a, Ro (f a)) : Ro (m >>= f) := fun s b s' h => by
  obtain ⟨a, s1, h3, h4⟩ := bind_ok.1 h
  rw [h2 a _ _ _ h4, h1 _ _ _ h3]
theorem ro_getR : Ro getR := fun _ _ _ h => by cases h; rfl
theorem ro_check (b : Bool) (e : Stop) : Ro (check b e) := fun s a s' h => by
  unfold check at h; split at h <;> cases h; rfl
theorem ro_rd (acc : Acc) (a : BitVec 32) (k p : Nat) : Ro (rd acc a k p) := fun s v s' h => by
  unfold rd at h; split at h <;> cases h; rfl
theorem ro_readDesc (acc : Acc) (b : Bool) (sel : BitVec 16) : Ro (readDesc acc b sel) := by
  unfold readDesc
  exact ro_bind ro_getR fun _ => ro_bind (ro_check _ _) fun _ => ro_bind (ro_check _ _) fun _ => ro_bind (ro_rd _ _ _ _) fun _ => ro_pure _
theorem ro_popV (acc : Acc) (k : Nat) (sp : BitVec 32) : Ro (popV acc k sp) := by
  unfold popV
  exact ro_bind ro_getR fun _ => ro_bind (ro_rd _ _ _ _) fun _ => ro_pure _

theorem read_all {acc : Acc} {sel : BitVec 16} {s s' : Cpu} {p : BitVec 32 × BitVec 64} (h : readDesc acc false sel s = .ok p s') :
    s' = s ∧ p.1 = descAddr s.r sel ∧ p.2 = descAt s sel := by
  rw [readDesc_eq] at h
  split at h
  · cases h
  split at h
  · cases h; exact ⟨rfl, rfl, rfl⟩
  · cases h

/-- What a successful check of a stack segment returns. -/
theorem checkSs_ok {acc : Acc} {sel : BitVec 16} {l : Option (BitVec 64)} {s s' : Cpu} {p : BitVec 32 × BitVec 64} (h : checkSs acc sel l s = .ok p s') :
    s' = s ∧ p.1 = descAddr s.r sel ∧ p.2 = descAt s sel := by
  unfold checkSs at h
  rw [bind_check] at h
  split at h
  · cases h
  obtain ⟨⟨a, d⟩, s1, h1, h⟩ := bind_ok.1 h
  try dsimp only at h
  rw [bind_getR] at h
  try dsimp only at h
  rw [bind_check] at h
  split at h
  · cases h
  rw [bind_check] at h
  split at h
  · cases h
  cases h
  exact read_all h1

theorem checkSeg_ok {acc : Acc} {sel : BitVec 16} {s s' : Cpu} {p : BitVec 32 × BitVec 64} (h : checkSeg acc sel s = .ok p s') :
    s' = s ∧ p.1 = descAddr s.r sel ∧ p.2 = descAt s sel := by
  unfold checkSeg at h
  obtain ⟨⟨a, d⟩, s1, h1, h⟩ := bind_ok.1 h
  try dsimp only at h
  rw [bind_getR] at h
  try dsimp only at h
  rw [bind_check] at h
  split at h
  · cases h
  rw [bind_check] at h
  split at h
  · cases h
  rw [bind_check] at h
  split at h
  · cases h
  rw [bind_check] at h
  split at h
  · cases h
  cases h
  exact read_all h1

theorem loadEnd_mem {acc : Acc} {i : SR} {sel : BitVec 16} {a : BitVec 32} {d : BitVec 64} {s s' : Cpu} {u : Unit}
    (h : loadEnd acc i sel a d s = .ok u s') : s'.mem = mark s.mem a d := by
  obtain ⟨_, s1, h1, h2⟩ := bind_ok.1 h
  have := modR_ok.1 h2
  have h3 : s'.mem = s1.mem := by rw [this]
  exact h3.trans (setAccessed_mem h1)

/-- The end of a far return: flags, if there are any. -/
def retFlags : Option (BitVec 32 × BitVec 32) → M Unit
  | some (v, m) => modR (writeEflags v m)
  | none => pure ()

/-- RETF and IRET after the descriptor of CS was read. -/
def retCase (acc : Acc) (k : Nat) (eip : BitVec 32) (cs : BitVec 16) (sp : BitVec 32) (e : Option (BitVec 32 × BitVec 32)) (a : BitVec 32) (d : BitVec 64) : M Unit := do
  let r ← getR
  check (!(dS d && dCode d)) (.exc GP (selErr cs))
  check (decide (rpl cs < cpl r)) (.exc GP (selErr cs))
  check (dConf d && decide (rpl cs < dDpl d)) (.exc GP (selErr cs))
  check (!dP d) (.exc NP (selErr cs))
  if cpl r < rpl cs then
    let (nesp, sp) ← popV acc k sp
    let (ssv, _) ← popV acc k sp
    let ss : BitVec 16 := ssv.setWidth 16
    let (sa, sd) ← checkSs acc ss (some (rpl cs))
    setAccessed acc sd sa
    setAccessed acc d a
    loadDesc .ss ss sd
    loadDesc .cs cs d
    modR fun r => validateAll (retPoint (r.ss.flags &&& HID_DB != 0#32) nesp eip r)
  else
    setAccessed acc d a
    modR fun r => retPoint (r.hflags &&& H_SS32 != 0#32) sp eip r
    loadDesc .cs cs d
  retFlags e

theorem retPe_case (acc : Acc) (k : Nat) (eip : BitVec 32) (cs : BitVec 16) (sp : BitVec 32) (e : Option (BitVec 32 × BitVec 32)) :
    retPe acc k eip cs sp e = (check (isNull cs) (.exc GP 0#16) >>= fun _ => readDesc acc false cs >>= fun p => retCase acc k eip cs sp e p.1 p.2) := by
  cases e <;> rfl

theorem retFlags_ok {e : Option (BitVec 32 × BitVec 32)} {s s' : Cpu} (h : retFlags e s = .ok () s') : s'.mem = s.mem ∧ s'.r.cs = s.r.cs ∧ s'.r.ss = s.r.ss := by
  cases e with
  | none => cases h; exact ⟨rfl, rfl, rfl⟩
  | some p => have := modR_ok.1 h; rw [this]; exact ⟨rfl, rfl, rfl⟩

/-- The memory after a far return. -/
theorem retCase_mem {acc : Acc} {k : Nat} {eip sp a : BitVec 32} {cs : BitVec 16} {e : Option (BitVec 32 × BitVec 32)} {d : BitVec 64} {s s' : Cpu}
    (h : retCase acc k eip cs sp e a d s = .ok () s') : s'.r.cs.sel = cs ∧ ¬ rpl cs < cpl s.r ∧
      if cpl s.r < rpl cs then s'.mem = mark (mark s.mem (descAddr s.r s'.r.ss.sel) (descAt s s'.r.ss.sel)) a d
      else s'.mem = mark s.mem a d := by
  unfold retCase at h
  rw [bind_getR] at h
  simp only [bind_check] at h
  split at h
  · cases h
  split at h
  · cases h
  rename_i hge
  split at h
  · cases h
  split at h
  · cases h
  have hge' : ¬ rpl cs < cpl s.r := by simpa using hge
  split at h
  · rename_i hlt
    obtain ⟨⟨nesp, sp1⟩, s1, h1, g1⟩ := bind_ok.1 h
    have e1 := ro_popV _ _ _ _ _ _ h1
    obtain ⟨⟨ssv, sp2⟩, s2, h2, g2⟩ := bind_ok.1 g1
    have e2 := (ro_popV _ _ _ _ _ _ h2).trans e1
    obtain ⟨⟨sa, sd⟩, s3, h3, g3⟩ := bind_ok.1 g2
    obtain ⟨e3', e4, e5⟩ := checkSs_ok h3
    have e3 := e3'.trans e2
    obtain ⟨_, s4, h4, g4⟩ := bind_ok.1 g3
    obtain ⟨_, s5, h5, g5⟩ := bind_ok.1 g4
    rw [bind_loadDesc, bind_loadDesc, bind_modR] at g5
    obtain ⟨f1, f2, f3⟩ := retFlags_ok g5
    rw [e2] at e4 e5
    rw [e3] at h4
    obtain ⟨v1, v2, v3, v4, v5⟩ := validateAll_core (retPoint ((descFlags sd) &&& HID_DB != 0#32) nesp eip
      (writeSeg .cs cs (descBase d) (descLimit d) (descFlags d) (writeSeg .ss (ssv.setWidth 16) (descBase sd) (descLimit sd) (descFlags sd) s5.r)))
    have hss : s'.r.ss.sel = ssv.setWidth 16 := by
      rw [f3]; exact congrArg SegReg.sel v5
    have hcs : s'.r.cs.sel = cs := by
      rw [f2]; exact congrArg SegReg.sel (validateAll_cs _)
    refine ⟨hcs, hge', ?_⟩
    rw [if_pos hlt, hss, f1]
    show s5.mem = _
    rw [setAccessed_mem h5, setAccessed_mem h4]
    dsimp only at e4 e5
    rw [e4, e5]
  · rename_i hlt
    obtain ⟨_, s4, h4, h⟩ := bind_ok.1 h
    rw [bind_modR, bind_loadDesc] at h
    obtain ⟨f1, f2, f3⟩ := retFlags_ok h
    refine ⟨by rw [f2]; rfl, hge', ?_⟩
    rw [if_neg hlt, f1]
    show s4.mem = _
    exact setAccessed_mem h4

theorem ret_mem {acc : Acc} {k : Nat} {eip sp : BitVec 32} {cs : BitVec 16} {e : Option (BitVec 32 × BitVec 32)} {s s' : Cpu} (ha : AgreeCore s.r)
    (hm' : mode s'.r = .prot) (h : retPe acc k eip cs sp e s = .ok () s') : s'.mem =
      if level s'.r = level s.r then mark s.mem (descAddr s.r s'.r.cs.sel) (descAt s s'.r.cs.sel)
      else mark (mark s.mem (descAddr s.r s'.r.ss.sel) (descAt s s'.r.ss.sel)) (descAddr s.r s'.r.cs.sel) (descAt s s'.r.cs.sel) := by
  rw [retPe_case, bind_check] at h
  split at h
  · cases h
  obtain ⟨⟨a, d⟩, s1, h1, g⟩ := bind_ok.1 h
  obtain ⟨e1, e2, e3⟩ := read_all h1
  dsimp only at e2 e3 g
  rw [e1] at g
  obtain ⟨hcs, hge, hmem⟩ := retCase_mem g
  rw [level_prot hm', hcs, ← e2, ← e3]
  rw [cpl_level ha, rpl_eq] at hge hmem
  rw [lt2] at hge
  simp only [lt2] at hmem
  have hr : (cs.setWidth 2 : BitVec 2) = Spec.rpl cs := by rfl
  rw [hr]
  by_cases hl : level s.r < Spec.rpl cs
  · rw [if_pos hl] at hmem
    rw [if_neg (fun hc => by rw [hc] at hl; exact absurd hl (BitVec.lt_irrefl _))]
    exact hmem
  · rw [if_neg hl] at hmem
    rw [if_pos (BitVec.le_antisymm (by simpa using hl) (by simpa using hge))]
    exact hmem

/-- The end of a far jump. -/
def jmpEnd (acc : Acc) (sel : BitVec 16) (eip a : BitVec 32) (d : BitVec 64) : M Unit := do
  setAccessed acc d a
  loadDesc .cs sel d
  modR fun r => { r with eip := eip }

theorem jmpEnd_mem {acc : Acc} {sel : BitVec 16} {eip a : BitVec 32} {d : BitVec 64} {s s' : Cpu} (h : jmpEnd acc sel eip a d s = .ok () s') :
    s'.mem = mark s.mem a d := by
  obtain ⟨_, s1, h1, g⟩ := bind_ok.1 h
  rw [bind_loadDesc] at g
  have h3 : s'.mem = s1.mem := by rw [modR_ok.1 g]
  exact h3.trans (setAccessed_mem h1)

def jmpSeg (acc : Acc) (r : Regs) (sel : BitVec 16) (k : Nat) (jmp a : BitVec 32) (d : BitVec 64) : M Unit := do
  check (!dCode d) (.exc GP (selErr sel))
  if dConf d then check (decide (cpl r < dDpl d)) (.exc GP (selErr sel))
  else check (decide (cpl r < rpl sel) || dDpl d != cpl r) (.exc GP (selErr sel))
  check (!dP d) (.exc NP (selErr sel))
  jmpEnd acc (selErr sel ||| (cpl r).setWidth 16) (if k = 2 then jmp &&& 0xFFFF#32 else jmp) a d

def jmpGate2 (acc : Acc) (r : Regs) (sel csel : BitVec 16) (jmp ca : BitVec 32) (d cd : BitVec 64) : M Unit := do
  check (!(dS cd && dCode cd) || (dConf cd && decide (cpl r < dDpl cd)) ||
    (!dConf cd && dDpl cd != cpl r)) (.exc GP (selErr csel))
  check (!dP cd) (.exc NP (selErr csel))
  jmpEnd acc (selErr sel ||| (cpl r).setWidth 16) (if dTy d >>> 3 = 0#64 then jmp &&& 0xFFFF#32 else jmp) ca cd

def jmpGate (acc : Acc) (r : Regs) (sel : BitVec 16) (jmp : BitVec 32) (d : BitVec 64) : M Unit := do
  check (dTy d == 1#64 || dTy d == 5#64 || dTy d == 9#64) .abort
  check (!(dTy d == 4#64 || dTy d == 12#64)) (.exc GP (selErr sel))
  check (decide (dDpl d < cpl r) || decide (dDpl d < rpl sel)) (.exc GP (selErr sel))
  check (!dP d) (.exc NP (selErr sel))
  check (isNull (((d &&& 0xFFFF0000#64) >>> 16).setWidth 16)) (.exc GP 0#16)
  let p ← readDesc acc false (((d &&& 0xFFFF0000#64) >>> 16).setWidth 16)
  jmpGate2 acc r sel (((d &&& 0xFFFF0000#64) >>> 16).setWidth 16) jmp p.1 d p.2

theorem ljmpPe_eq (acc : Acc) (sel : BitVec 16) (k : Nat) (jmp : BitVec 32) : ljmpPe acc sel k jmp = (getR >>= fun r =>
    check (isNull sel) (.exc GP 0#16) >>= fun _ => readDesc acc false sel >>= fun p =>
    if dS p.2 then jmpSeg acc r sel k jmp p.1 p.2 else jmpGate acc r sel jmp p.2) := rfl

theorem jmpSeg_mem {acc : Acc} {r : Regs} {sel : BitVec 16} {k : Nat} {jmp a : BitVec 32} {d : BitVec 64} {s s' : Cpu}
    (h : jmpSeg acc r sel k jmp a d s = .ok () s') : s'.mem = mark s.mem a d := by
  unfold jmpSeg at h
  rw [bind_check] at h
  split at h
  · cases h
  split at h
  · rw [bind_check] at h
    split at h
    · cases h
    dsimp only at h
    rw [bind_check] at h
    split at h
    · cases h
    exact jmpEnd_mem h
  · rw [bind_check] at h
    split at h
    · cases h
    dsimp only at h
    rw [bind_check] at h
    split at h
    · cases h
    exact jmpEnd_mem h

theorem jmpGate2_mem {acc : Acc} {r : Regs} {sel csel : BitVec 16} {jmp ca : BitVec 32} {d cd : BitVec 64} {s s' : Cpu}
    (h : jmpGate2 acc r sel csel jmp ca d cd s = .ok () s') : s'.mem = mark s.mem ca cd := by
  unfold jmpGate2 at h
  rw [bind_check] at h
  split at h
  · cases h
  rw [bind_check] at h
  split at h
  · cases h
  exact jmpEnd_mem h

theorem jmpGate_mem {acc : Acc} {r : Regs} {sel : BitVec 16} {jmp : BitVec 32} {d : BitVec 64} {s s' : Cpu}
    (h : jmpGate acc r sel jmp d s = .ok () s') : s'.mem = mark s.mem (descAddr s.r (gateSel d)) (descAt s (gateSel d)) := by
  unfold jmpGate at h
  simp only [bind_check] at h
  split at h; · cases h
  split at h; · cases h
  split at h; · cases h
  split at h; · cases h
  split at h; · cases h
  obtain ⟨⟨ca, cd⟩, s1, h1, g⟩ := bind_ok.1 h
  obtain ⟨e1, e2, e3⟩ := read_all h1
  rw [gateSel_eq] at e2 e3
  dsimp only at e2 e3
  have := jmpGate2_mem g
  rw [e1] at this
  rw [← e2, ← e3]
  exact this

theorem toVm86_mem {acc : Acc} {eip : BitVec 32} {cs : BitVec 16} {e sp : BitVec 32} {s s' : Cpu} (h : iretToVm86 acc eip cs e sp s = .ok () s') :
    s'.mem = s.mem ∧ s'.r.eflags = ((s.r.eflags &&& ~~~0x3E7300#32) ||| (e &&& 0x3E7300#32)) ||| 2#32 := by
  rw [iretToVm86_eq] at h
  obtain ⟨p3, s3, h3, g3⟩ := bind_ok.1 h
  obtain ⟨p4, s4, h4, g4⟩ := bind_ok.1 g3
  obtain ⟨p5, s5, h5, g5⟩ := bind_ok.1 g4
  obtain ⟨p6, s6, h6, g6⟩ := bind_ok.1 g5
  obtain ⟨p7, s7, h7, g7⟩ := bind_ok.1 g6
  obtain ⟨p8, s8, h8, g8⟩ := bind_ok.1 g7
  have e8 := (ro_popV _ _ _ _ _ _ h8).trans ((ro_popV _ _ _ _ _ _ h7).trans ((ro_popV _ _ _ _ _ _ h6).trans
    ((ro_popV _ _ _ _ _ _ h5).trans ((ro_popV _ _ _ _ _ _ h4).trans (ro_popV _ _ _ _ _ _ h3)))))
  rw [e8] at g8
  have := modR_ok.1 g8
  rw [this]
  exact ⟨rfl, rfl⟩

theorem not_prot {r : Regs} (h : r.eflags[17] = true) : mode r ≠ .prot := by
  unfold mode
  split
  · intro h; cases h
  · intro h; cases h

end AccP
open AccP

/-- Marking sets the accessed bit of a code or data descriptor and changes no other bit; a system descriptor and all other memory stay as they are. -/
theorem C93_mark (m : Guest.Mem) (a : BitVec 32) :
    BitVec.ofNat 64 (load (mark m a (BitVec.ofNat 64 (load m a 8))) a 8) =
      (if isSeg (BitVec.ofNat 64 (load m a 8)) then BitVec.ofNat 64 (load m a 8) ||| BitVec.twoPow 64 40 else BitVec.ofNat 64 (load m a 8)) ∧
    ∀ x : BitVec 32, 8 ≤ (x - a).toNat → mark m a (BitVec.ofNat 64 (load m a 8)) x = m x := by
  generalize hd : BitVec.ofNat 64 (load m a 8) = d
  unfold mark
  have e40 : (0x10000000000#64 : BitVec 64) = BitVec.twoPow 64 40 := by decide
  by_cases h : isSeg d = true ∧ accessed d = false
  · rw [if_pos h, if_pos h.1]
    refine ⟨?_, fun x hx => Guest.store_other _ _ _ _ _ hx⟩
    rw [Guest.load_store m a 8 _ 8 (by decide) (by decide), e40]
    rw [Nat.mod_eq_of_lt (by have := (d ||| BitVec.twoPow 64 40).isLt; exact this)]
    exact (BitVec.ofNat_toNat ..).trans (BitVec.setWidth_eq _)
  · rw [if_neg h]
    refine ⟨?_, fun _ _ => rfl⟩
    rw [hd]
    by_cases hs : isSeg d = true
    · rw [if_pos hs]
      have ha : d[40] = true := by
        cases hb : d[40]
        · exact absurd ⟨hs, hb⟩ h
        · rfl
      apply BitVec.eq_of_getLsbD_eq
      intro i hi
      rw [BitVec.getLsbD_or, BitVec.getLsbD_twoPow]
      by_cases h40 : i = 40
      · subst h40
        rw [BitVec.getLsbD_eq_getElem (by omega), ha]; rfl
      · have : ¬ 40 = i := fun hc => h40 hc.symm
        simp [this]
    · rw [if_neg hs]

/-- A segment register load: the descriptor that was loaded is marked, nothing else is written; a null selector writes nothing. -/
theorem C93_load (acc : Acc) (s s' : Cpu) (i : SR) (sel : BitVec 16) (ha : AgreeCore s.r) (hm : mode s.r = .prot)
    (h : instr acc (.loadSeg i sel) s = .ok () s') :
    (nullSel sel → s'.mem = s.mem) ∧ (¬ nullSel sel → s'.mem = mark s.mem (descAddr s.r sel) (descAt s sel)) := by
  by_cases hi : i = .cs
  · subst hi; cases h
  rw [instr_load acc s i sel ha hm hi] at h
  by_cases hss : i = .ss
  · subst hss
    rw [movSel_ss] at h
    obtain ⟨p, s1, h1, g⟩ := bind_ok.1 h
    obtain ⟨e1, e2, e3⟩ := checkSs_ok h1
    have g1 := loadEnd_mem g
    rw [e1, e2, e3] at g1
    refine ⟨fun hn => ?_, fun _ => g1⟩
    unfold checkSs at h1
    rw [bind_check, if_pos ((isNull_iff _).2 hn)] at h1
    cases h1
  · rw [movSel_data _ _ _ hss] at h
    by_cases hn : isNull sel = true
    · rw [if_pos hn] at h
      refine ⟨fun _ => by rw [modR_ok.1 h], fun hc => absurd ((isNull_iff _).1 hn) hc⟩
    · rw [if_neg hn] at h
      refine ⟨fun hc => absurd ((isNull_iff _).2 hc) hn, fun _ => ?_⟩
      obtain ⟨p, s1, h1, g⟩ := bind_ok.1 h
      obtain ⟨e1, e2, e3⟩ := checkSeg_ok h1
      have g1 := loadEnd_mem g
      rw [e1, e2, e3] at g1
      exact g1

/-- A far jump: the descriptor of the code segment reached is marked, nothing else is written. -/
theorem C93_jump (acc : Acc) (s s' : Cpu) (sel : BitVec 16) (k : Nat) (jmp : BitVec 32) (ha : AgreeCore s.r) (hm : mode s.r = .prot)
    (h : instr acc (.farJmp sel k jmp) s = .ok () s') : s'.mem =
      if isSeg (descAt s sel) then mark s.mem (descAddr s.r sel) (descAt s sel)
      else mark s.mem (descAddr s.r (gateSel (descAt s sel))) (descAt s (gateSel (descAt s sel))) := by
  change (if peNotVm s.r = true then _ else _ : M Unit) s = _ at h
  rw [peNotVm_prot (prot_of ha hm), if_pos rfl, ljmpPe_eq, bind_getR, bind_check] at h
  split at h
  · cases h
  obtain ⟨⟨a, d⟩, s1, h1, g⟩ := bind_ok.1 h
  obtain ⟨e1, e2, e3⟩ := read_all h1
  dsimp only at e2 e3 g
  rw [← e2, ← e3]
  rw [e1, dS_eq] at g
  by_cases hs : isSeg d = true
  · rw [if_pos hs] at g ⊢
    exact jmpSeg_mem g
  · rw [if_neg hs] at g ⊢
    exact jmpGate_mem g

/-- RETF: the descriptor of the code segment returned to is marked; on a return to another level that of the stack segment too; nothing else is written. -/
theorem C93_far_return (acc : Acc) (s s' : Cpu) (k : Nat) (ha : AgreeCore s.r) (hm : mode s.r = .prot) (h : instr acc (.farRet k) s = .ok () s') : s'.mem =
      if level s'.r = level s.r then mark s.mem (descAddr s.r s'.r.cs.sel) (descAt s s'.r.cs.sel)
      else mark (mark s.mem (descAddr s.r s'.r.ss.sel) (descAt s s'.r.ss.sel)) (descAddr s.r s'.r.cs.sel) (descAt s s'.r.cs.sel) := by
  have hp := prot_of ha hm
  change (if peNotVm s.r = true then _ else _ : M Unit) s = _ at h
  rw [peNotVm_prot hp, if_pos rfl] at h
  have hk := (keeps_lretPe (fl := false) acc k).run s hp
  rw [h] at hk
  unfold lretPe at h
  rw [bind_getR] at h
  obtain ⟨⟨eip, sp⟩, s1, h1, g1⟩ := bind_ok.1 h
  obtain ⟨⟨cs, sp'⟩, s2, h2, g2⟩ := bind_ok.1 g1
  have e1 := ro_popV _ _ _ _ _ _ h1
  have e2 := (ro_popV _ _ _ _ _ _ h2).trans e1
  dsimp only at g2
  rw [e2] at g2
  exact ret_mem ha (mode_prot_of hk) g2

/-- IRET: to protected mode as RETF; to vm86 mode memory is not written. -/
theorem C93_iret (acc : Acc) (s s' : Cpu) (k : Nat) (ha : AgreeCore s.r) (hm : mode s.r = .prot) (h : instr acc (.iret k) s = .ok () s') :
    s'.mem =
      if mode s'.r ≠ .prot then s.mem
      else if level s'.r = level s.r then mark s.mem (descAddr s.r s'.r.cs.sel) (descAt s s'.r.cs.sel)
      else mark (mark s.mem (descAddr s.r s'.r.ss.sel) (descAt s s'.r.ss.sel)) (descAddr s.r s'.r.cs.sel) (descAt s s'.r.cs.sel) := by
  have hp := prot_of ha hm
  change (if s.r.hflags &&& H_PE ≠ 0#32 then _ else _ : M Unit) s = _ at h
  rw [if_pos (pe_on hp.pe)] at h
  unfold iretPe at h
  rw [bind_getR, if_neg (vm_off hp.2.2), bind_check] at h
  split at h
  · cases h
  obtain ⟨⟨eip, sp⟩, s1, h1, g1⟩ := bind_ok.1 h
  obtain ⟨⟨cs, sp'⟩, s2, h2, g2⟩ := bind_ok.1 g1
  obtain ⟨⟨e, sp''⟩, s3, h3, g3⟩ := bind_ok.1 g2
  have e1 := ro_popV _ _ _ _ _ _ h1
  have e2 := (ro_popV _ _ _ _ _ _ h2).trans e1
  have e3 := (ro_popV _ _ _ _ _ _ h3).trans e2
  dsimp only at g3
  rw [e3] at g3
  split at g3
  · rename_i hv
    have hv : e[17] = true := (and_ne_zero_bit _ _ 17 (by omega) rfl).1 hv
    obtain ⟨m, f⟩ := toVm86_mem g3
    rw [if_pos, m]
    refine not_prot ?_
    rw [f]
    simp [hv]
  · rename_i hv
    have hv : e[17] = false := by
      cases hb : e[17]
      · rfl
      · exact absurd ((and_ne_zero_bit _ _ 17 (by omega) rfl).2 hb) hv
    have hm' : mode s'.r = .prot := by
      have hk := (keeps_retPe (fl := false) acc k eip (cs.setWidth 16) sp'' (some (e, iretMask k s.r)) (by intro v m h; cases h; exact hv)).run s hp
      rw [g3] at hk
      exact mode_prot_of hk
    rw [if_neg (by rw [hm']; intro h; exact h rfl)]
    exact ret_mem ha hm' g3

namespace AccP

theorem callEnd_mark {acc : Acc} {csel : BitVec 16} {neip ca sp : BitVec 32} {cd : BitVec 64} {s s' : Cpu} (h : callEnd acc csel neip ca cd sp s = .ok () s') :
    s'.mem = mark s.mem ca cd := by
  obtain ⟨sy, g1, g2, -⟩ := callEnd_ok h
  rw [g2]; exact setAccessed_mem g1

theorem callPush_mark {acc : Acc} {sel : BitVec 16} {call ret a : BitVec 32} {k : Nat} {r : Regs} {d : BitVec 64} {s s' : Cpu}
    (h : callPush acc sel call k ret r a d s = .ok () s') : ∃ m, s'.mem = mark m a d := by
  obtain ⟨sp1, s1, h1, g1⟩ := bind_ok.1 h
  obtain ⟨sp2, s2, h2, g2⟩ := bind_ok.1 g1
  obtain ⟨sy, f1, f2, -⟩ := callEnd_ok g2
  exact ⟨s2.mem, by rw [f2]; exact setAccessed_mem f1⟩

theorem callStack_mark {acc : Acc} {r : Regs} {ret tesp sa neip ca : BitVec 32} {w n : Nat} {cd sd : BitVec 64} {ss csel : BitVec 16} {s s' : Cpu}
    (h : callStack acc r ret w n cd tesp ss sa sd (callEnd acc csel neip ca cd) s = .ok () s') :
    ∃ m, s'.mem = mark (mark m sa sd) ca cd := by
  unfold callStack at h
  simp only [bind_check] at h
  split at h; · cases h
  split at h; · cases h
  obtain ⟨sp, sx, h1, h⟩ := bind_ok.1 h
  obtain ⟨_, sy, h2, h⟩ := bind_ok.1 h
  rw [bind_loadDesc] at h
  have := callEnd_mark h
  have h3 : sy.mem = mark sx.mem sa sd := setAccessed_mem h2
  exact ⟨sx.mem, by rw [this]; exact congrArg (mark · ca cd) h3⟩

theorem callGate2_mark {acc : Acc} {ret ca : BitVec 32} {d cd : BitVec 64} {csel : BitVec 16} {s s' : Cpu}
    (h : callGate2 acc s.r ret d csel ca cd s = .ok () s') : ∃ m, s'.mem = mark m ca cd := by
  cases hc : (!dConf cd && decide (dDpl cd < cpl s.r)) with
  | true =>
    obtain ⟨w, tesp, ss, neip, -, g⟩ := callGate2_inner h hc
    obtain ⟨m, e⟩ := callStack_mark g
    exact ⟨_, e⟩
  | false =>
    obtain ⟨w, sp, sx, neip, -, -, g⟩ := callGate2_same h hc
    exact ⟨_, callEnd_mark g⟩

end AccP

/-- CALL far: whatever the call pushes, the last thing it writes is the mark in the descriptor of the code segment entered, with the contents that
the descriptor had before the call. -/
theorem C93_call (acc : Acc) (s s' : Cpu) (sel : BitVec 16) (k : Nat) (call ret : BitVec 32) (ha : AgreeCore s.r) (hm : mode s.r = .prot)
    (h : instr acc (.farCall sel k call ret) s = .ok () s') :
    (isSeg (descAt s sel) = true → ∃ m, s'.mem = mark m (descAddr s.r sel) (descAt s sel)) ∧
    (isSeg (descAt s sel) = false → ∃ m, s'.mem = mark m (descAddr s.r (gateSel (descAt s sel))) (descAt s (gateSel (descAt s sel)))) := by
  have hi := lcall_inv ha hm h
  refine ⟨fun hs => ?_, fun hs => ?_⟩
  · rw [if_pos ((dS_eq _).trans hs)] at hi
    exact callPush_mark (callDirect_inv hi)
  · obtain ⟨csel, hcs, hi⟩ := callGate_inv (ite_neg_call ((dS_eq _).trans hs) hi)
    rw [← hcs]
    exact callGate2_mark hi

namespace AccP
/-- A GDT whose data segment (0x10) and code segment (8) were never used. -/
def fresh : Cpu := ⟨SegP.kern.r, fun a => if a = 0x2015#32 then 0x92#8 else if a = 0x200D#32 then 0x9A#8 else SegP.kern.mem a⟩

/-- Does a run complete with these two bytes in memory? -/
def marks (a : BitVec 8) (b : BitVec 8) : Res Unit → Bool
  | .ok _ s => s.mem 0x2015#32 == a && s.mem 0x200D#32 == b && s.mem 0x2014#32 == 0x34#8
  | _ => false
end AccP

example : mode fresh.r = .prot ∧ AgreeCore fresh.r ∧ marks 0x93#8 0x9A#8 (instr SegP.allOk (.loadSeg .ds 0x10#16) fresh) = true ∧
    marks 0x92#8 0x9B#8 (instr SegP.allOk (.farJmp 8#16 4 0x1000#32) fresh) = true ∧
    marks 0x92#8 0x9B#8 (instr SegP.allOk (.farCall 8#16 4 0x1000#32 0x2000#32) fresh) = true := by
  refine ⟨by decide +kernel, ?_, by decide +kernel, by decide +kernel, by decide +kernel⟩
  exact SegP.kern_core.1

namespace AccP
/-- A kernel about to return to level 3, to segments that were never used. -/
def freshRet : Cpu := ⟨SegP.retKern.r, fun a => if a = 0x201D#32 then 0xF2#8 else if a = 0x2025#32 then 0xFA#8 else SegP.retKern.mem a⟩
/-- Does a run complete at level 3 with these two segments marked? -/
def marks3 : Res Unit → Bool
  | .ok _ s => s.mem 0x201D#32 == 0xF3#8 && s.mem 0x2025#32 == 0xFB#8 && level s.r == 3#2
  | _ => false
def completes : Res Unit → Bool
  | .ok _ _ => true
  | _ => false
end AccP

example : mode freshRet.r = .prot ∧ level freshRet.r = 0#2 ∧ marks3 (instr SegP.allOk (.farRet 4) freshRet) = true := by
  refine ⟨by decide +kernel, by decide +kernel, by decide +kernel⟩

example : mode IretP.user1.r = .prot ∧ completes (instr SegP.allOk (.iret 4) IretP.user1) = true := by
  refine ⟨by decide +kernel, by decide +kernel⟩

end Verif.Seg
