import Verif.Props.Gate
import Verif.Props.Mode
import Verif.Props.SysSeg
import Verif.Spec.GivesUp
import Verif.Lemmas.FarCall
import Verif.Lemmas.FarRet
import Verif.Props.FarCall
import Verif.Props.DoubleFault
/-
For C90: the guest can stop the emulator itself only by asking for a task switch or for page tables with 64 bit entries.
-/
namespace Verif.Seg
open Spec (mode level AgreeCore NoVmInReal Unsupported TaskGate isTask)
open ModeP (Along syncOk)
open Guest (load)

/-- The program does not give up. -/
structure NoAb {α : Type} (m : M α) : Prop where
  run : ∀ s s', m s ≠ .stop .abort s'

theorem noab_bind {α β : Type} {m : M α} {f : α → M β} (hm : NoAb m) (hf : ∀ a, NoAb (f a)) : NoAb (m >>= f) := by
  constructor
  intro s s' h
  rcases bind_stop.1 h with h | ⟨a, s1, _, h⟩
  · exact hm.run s s' h
  · exact (hf a).run s1 s' h
theorem noab_pure {α : Type} (a : α) : NoAb (pure a : M α) := ⟨fun _ _ h => by cases h⟩
theorem noab_getR : NoAb getR := ⟨fun _ _ h => by cases h⟩
theorem noab_modR (f : Regs → Regs) : NoAb (modR f) := ⟨fun _ _ h => by cases h⟩
theorem noab_exc {α : Type} (i : Nat) (c : BitVec 16) : NoAb (stop (.exc i c) : M α) := ⟨fun _ _ h => by cases h⟩
theorem noab_check (b : Bool) (i : Nat) (c : BitVec 16) : NoAb (check b (.exc i c)) := by
  constructor; intro s s' h; unfold check at h; cases b <;> cases h
theorem noab_rd (acc : Acc) (a : BitVec 32) (k p : Nat) : NoAb (rd acc a k p) := by
  constructor; intro s s' h; unfold rd at h; cases hh : acc s a k false p <;> rw [hh] at h <;> cases h
theorem noab_wr (acc : Acc) (a : BitVec 32) (k p v : Nat) : NoAb (wr acc a k p v) := by
  constructor; intro s s' h; unfold wr at h; cases hh : acc s a k true p <;> rw [hh] at h <;> cases h
theorem noab_ite {α : Type} {c : Prop} [Decidable c] {m n : M α} (hm : NoAb m) (hn : NoAb n) : NoAb (if c then m else n) := by
  split <;> assumption
theorem noab_mapExc {α : Type} {m : M α} {f : Nat → BitVec 16 → Nat × BitVec 16} (hm : NoAb m) :
    NoAb (mapExc (fun i c => .exc (f i c).1 (f i c).2) m) := by
  constructor
  intro s s' h
  unfold mapExc at h
  cases hms : m s with
  | ok a x => rw [hms] at h; cases h
  | stop e x =>
    rw [hms] at h
    cases e with
    | exc i c => cases h
    | fault => cases h
    | abort => exact hm.run s x hms

theorem noab_mapExc1 {α : Type} {m : M α} (e : BitVec 16) (hm : NoAb m) : NoAb (mapExc (fun i c => .exc i (c + e)) m) :=
  noab_mapExc (f := fun i c => (i, c + e)) hm
theorem noab_mapExc2 {α : Type} {m : M α} (t : Nat) (e : BitVec 16) (hm : NoAb m) : NoAb (mapExc (fun _ c => .exc t (c + e)) m) :=
  noab_mapExc (f := fun _ c => (t, c + e)) hm

/-- Decompose a program into its steps. -/
macro "noab" : tactic => `(tactic| repeat' first
  | with_reducible apply noab_bind
  | (intro _)
  | with_reducible apply noab_pure
  | with_reducible apply noab_getR
  | with_reducible apply noab_modR
  | with_reducible apply noab_exc
  | with_reducible apply noab_check
  | with_reducible apply noab_rd
  | with_reducible apply noab_wr
  | with_reducible apply noab_ite
  | with_reducible apply noab_mapExc1
  | with_reducible apply noab_mapExc2
  | assumption
  | split)

theorem noab_readDesc (acc : Acc) (t : Bool) (sel : BitVec 16) : NoAb (readDesc acc t sel) := by unfold readDesc; noab
theorem noab_setAccessed (acc : Acc) (d : BitVec 64) (a : BitVec 32) : NoAb (setAccessed acc d a) := by unfold setAccessed; noab
theorem noab_loadDesc (i : SR) (sel : BitVec 16) (d : BitVec 64) : NoAb (loadDesc i sel d) := by unfold loadDesc; noab
theorem noab_checkSs (acc : Acc) (sel : BitVec 16) (c : Option (BitVec 64)) : NoAb (checkSs acc sel c) := by
  unfold checkSs; noab; exact noab_readDesc ..
theorem noab_checkSeg (acc : Acc) (sel : BitVec 16) : NoAb (checkSeg acc sel) := by unfold checkSeg; noab; exact noab_readDesc ..
theorem noab_popV (acc : Acc) (k : Nat) (sp : BitVec 32) : NoAb (popV acc k sp) := by unfold popV; noab
theorem noab_pushV (acc : Acc) (k : Nat) (sp v : BitVec 32) : NoAb (pushV acc k sp v) := by unfold pushV; noab
theorem noab_tssStack (acc : Acc) (d p : Nat) : NoAb (tssStack acc d p) := by unfold tssStack; noab
theorem noab_pushRaw (acc : Acc) (k : Nat) (b m : BitVec 32) (p : Nat) (sp v : BitVec 32) : NoAb (pushRaw acc k b m p sp v) := by
  unfold pushRaw; noab
theorem noab_copyParams (acc : Acc) (k : Nat) (b m ob oe : BitVec 32) (n : Nat) (sp : BitVec 32) : NoAb (copyParams acc k b m ob oe n sp) := by
  induction n generalizing sp with
  | zero => exact noab_pure _
  | succ n ih => unfold copyParams; noab; exact noab_pushRaw ..; exact ih _
theorem noab_pushAll (acc : Acc) (k : Nat) (b m : BitVec 32) (p : Nat) (vs : List (BitVec 32)) (sp : BitVec 32) :
    NoAb (pushAll acc k b m p vs sp) := by
  induction vs generalizing sp with
  | nil => exact noab_pure _
  | cons v vs ih => unfold pushAll; noab; exact noab_pushRaw ..; exact ih _
theorem noab_newStack (acc : Acc) (x : BitVec 16) (vm : Bool) (d : Nat) : NoAb (newStack acc x vm d) := by
  unfold newStack; noab <;> first | exact noab_tssStack .. | exact noab_readDesc .. | exact noab_setAccessed ..
macro "noabAll" : tactic => `(tactic| repeat' first
  | with_reducible apply noab_bind
  | (intro _)
  | with_reducible apply noab_pure
  | with_reducible apply noab_getR
  | with_reducible apply noab_modR
  | with_reducible apply noab_exc
  | with_reducible apply noab_check
  | with_reducible apply noab_rd
  | with_reducible apply noab_wr
  | with_reducible apply noab_ite
  | with_reducible apply noab_mapExc1
  | with_reducible apply noab_mapExc2
  | with_reducible apply noab_readDesc
  | with_reducible apply noab_setAccessed
  | with_reducible apply noab_loadDesc
  | with_reducible apply noab_checkSs
  | with_reducible apply noab_checkSeg
  | with_reducible apply noab_popV
  | with_reducible apply noab_pushV
  | with_reducible apply noab_tssStack
  | with_reducible apply noab_pushRaw
  | with_reducible apply noab_copyParams
  | with_reducible apply noab_pushAll
  | with_reducible apply noab_newStack
  | assumption
  | split)

theorem noab_movSelPe (acc : Acc) (i : SR) (sel : BitVec 16) : NoAb (movSelPe acc i sel) := by cases i <;> unfold movSelPe <;> noabAll
theorem noab_movSelReal (i : SR) (sel : BitVec 16) : NoAb (movSelReal i sel) := noab_modR _
theorem noab_farReal (sel : BitVec 16) (e : BitVec 32) : NoAb (farReal sel e) := noab_modR _
theorem noab_iretReal (acc : Acc) (k : Nat) : NoAb (iretReal acc k) := by unfold iretReal; noabAll
theorem noab_iretToVm86 (acc : Acc) (eip : BitVec 32) (cs : BitVec 16) (e sp : BitVec 32) : NoAb (iretToVm86 acc eip cs e sp) := by
  unfold iretToVm86; noabAll
theorem noab_retPe (acc : Acc) (k : Nat) (eip : BitVec 32) (cs : BitVec 16) (sp : BitVec 32) (e : Option (BitVec 32 × BitVec 32)) :
    NoAb (retPe acc k eip cs sp e) := by unfold retPe; noabAll
theorem noab_lretPe (acc : Acc) (k : Nat) : NoAb (lretPe acc k) := by unfold lretPe; noabAll; exact noab_retPe ..
theorem noab_farRetReal (acc : Acc) (k : Nat) : NoAb (farRetReal acc k) := by unfold farRetReal; noabAll; exact noab_farReal ..
theorem noab_farCallReal (acc : Acc) (sel : BitVec 16) (k : Nat) (e r : BitVec 32) : NoAb (farCallReal acc sel k e r) := by
  unfold farCallReal; noabAll; exact noab_farReal ..
theorem noab_ltr (acc : Acc) (sel : BitVec 16) : NoAb (ltr acc sel) := by unfold ltr; noabAll
theorem noab_lldt (acc : Acc) (sel : BitVec 16) : NoAb (lldt acc sel) := by unfold lldt; noabAll
theorem noab_callDirect (acc : Acc) (sel : BitVec 16) (call : BitVec 32) (k : Nat) (ret : BitVec 32) (r : Regs) (a : BitVec 32) (d : BitVec 64) :
    NoAb (callDirect acc sel call k ret r a d) := by unfold callDirect callPush; noabAll
theorem noab_callEnd (acc : Acc) (csel : BitVec 16) (neip ca : BitVec 32) (cd : BitVec 64) (sp : BitVec 32) : NoAb (callEnd acc csel neip ca cd sp) := by
  unfold callEnd; noabAll
theorem noab_callGate2 (acc : Acc) (r : Regs) (ret : BitVec 32) (d : BitVec 64) (csel : BitVec 16) (ca : BitVec 32) (cd : BitVec 64) :
    NoAb (callGate2 acc r ret d csel ca cd) := by
  unfold callGate2 callStack callInner; noabAll <;> exact noab_callEnd ..
theorem noab_vmeRedirect (acc : Acc) (idx : Nat) (cr2 : BitVec 32) : NoAb (vmeRedirect acc idx cr2) := by unfold vmeRedirect; noabAll
theorem noab_fromVm86 (acc : Acc) (k : Kind) (idx : Nat) (code : BitVec 16) (cr2 : BitVec 32) (i : Bool) (e n : BitVec 32) (sel : BitVec 16)
    (cd : BitVec 64) (dpl : Nat) : NoAb (fromVm86 acc k idx code cr2 i e n sel cd dpl) := by
  unfold fromVm86; noabAll
theorem noab_deliverReal (acc : Acc) (idx : Nat) : NoAb (deliverReal acc idx) := by unfold deliverReal; noabAll

theorem task_ty {d : BitVec 64} : (dTy d == 1#64 || dTy d == 5#64 || dTy d == 9#64) = true ↔
    (d.extractLsb' 40 4 = 1#4 ∨ d.extractLsb' 40 4 = 5#4 ∨ d.extractLsb' 40 4 = 9#4) := by
  rw [dTy_eq]
  generalize d.extractLsb' 40 4 = t
  revert t; decide

/-- What a far jump does after the descriptor is read. -/
def jmpTail (acc : Acc) (sel : BitVec 16) (k : Nat) (jmp : BitVec 32) (r : Regs) (a : BitVec 32) (d : BitVec 64) : M Unit := do
  if dS d then
    check (!dCode d) (.exc GP (selErr sel))
    if dConf d then check (decide (cpl r < dDpl d)) (.exc GP (selErr sel))
    else check (decide (cpl r < rpl sel) || dDpl d != cpl r) (.exc GP (selErr sel))
    check (!dP d) (.exc NP (selErr sel))
    setAccessed acc d a
    loadDesc .cs (selErr sel ||| (cpl r).setWidth 16) d
    modR fun r => { r with eip := if k = 2 then jmp &&& 0xFFFF#32 else jmp }
  else
    check (dTy d == 1#64 || dTy d == 5#64 || dTy d == 9#64) .abort
    check (!(dTy d == 4#64 || dTy d == 12#64)) (.exc GP (selErr sel))
    check (decide (dDpl d < cpl r) || decide (dDpl d < rpl sel)) (.exc GP (selErr sel))
    check (!dP d) (.exc NP (selErr sel))
    let csel : BitVec 16 := ((d &&& 0xFFFF0000#64) >>> 16).setWidth 16
    check (isNull csel) (.exc GP 0#16)
    let (ca, cd) ← readDesc acc false csel
    check (!(dS cd && dCode cd) || (dConf cd && decide (cpl r < dDpl cd)) ||
      (!dConf cd && dDpl cd != cpl r)) (.exc GP (selErr csel))
    check (!dP cd) (.exc NP (selErr csel))
    setAccessed acc cd ca
    loadDesc .cs (selErr sel ||| (cpl r).setWidth 16) cd
    modR fun r => { r with eip := if dTy d >>> 3 = 0#64 then jmp &&& 0xFFFF#32 else jmp }

theorem ljmpPe_eq (acc : Acc) (sel : BitVec 16) (k : Nat) (jmp : BitVec 32) :
    ljmpPe acc sel k jmp = (getR >>= fun r => check (isNull sel) (.exc GP 0#16) >>= fun _ => readDesc acc false sel >>= fun p =>
      jmpTail acc sel k jmp r p.1 p.2) := rfl

theorem jmpTail_abort {acc : Acc} {sel : BitVec 16} {k : Nat} {jmp : BitVec 32} {r : Regs} {a : BitVec 32} {d : BitVec 64} {s s' : Cpu} :
    jmpTail acc sel k jmp r a d s = .stop .abort s' ↔ s' = s ∧ isTask d := by
  have hseg : dS d = Spec.isSeg d := dS_eq d
  unfold jmpTail isTask
  rw [← hseg]
  constructor
  · intro h
    split at h
    · refine absurd h (NoAb.run ?_ s s')
      noabAll
    · rename_i hs
      rw [bind_check] at h
      split at h
      · rename_i ht
        cases h
        exact ⟨rfl, by simpa using hs, task_ty.1 ht⟩
      · refine absurd h (NoAb.run ?_ s s')
        noabAll
  · rintro ⟨rfl, h1, h2⟩
    rw [if_neg (by rw [h1]; exact Bool.false_ne_true), bind_check, if_pos (task_ty.2 h2)]

theorem callTail_abort {acc : Acc} {sel : BitVec 16} {k : Nat} {call ret : BitVec 32} {r : Regs} {a : BitVec 32} {d : BitVec 64} {s s' : Cpu} :
    (if dS d then callDirect acc sel call k ret r a d else callGate acc sel ret r d) s = .stop .abort s' ↔ s' = s ∧ isTask d := by
  have hseg : dS d = Spec.isSeg d := dS_eq d
  unfold isTask
  rw [← hseg]
  constructor
  · intro h
    split at h
    · exact absurd h ((noab_callDirect ..).run s s')
    · rename_i hs
      unfold callGate at h
      rw [bind_check] at h
      split at h
      · rename_i ht
        cases h
        exact ⟨rfl, by simpa using hs, task_ty.1 ht⟩
      · refine absurd h (NoAb.run ?_ s s')
        noabAll
        exact noab_callGate2 ..
  · rintro ⟨rfl, h1, h2⟩
    rw [if_neg (by rw [h1]; exact Bool.false_ne_true)]
    unfold callGate
    rw [bind_check, if_pos (task_ty.2 h2)]

/-- A far transfer that reads a descriptor first. -/
theorem readTail_abort {acc : Acc} {sel : BitVec 16} {T : Regs → BitVec 32 → BitVec 64 → M Unit} {s s' : Cpu}
    (hT : ∀ r a d, T r a d s = .stop .abort s' ↔ s' = s ∧ isTask d) :
    (getR >>= fun r => check (isNull sel) (.exc GP 0#16) >>= fun _ => readDesc acc false sel >>= fun p => T r p.1 p.2) s = .stop .abort s' ↔
      s' = s ∧ ¬ Spec.nullSel sel ∧ ¬ outside s.r sel ∧ acc s (Spec.descAddr s.r sel) 8 false 2 = true ∧ isTask (Spec.descAt s sel) := by
  rw [bind_getR, bind_check]
  have hn := isNull_iff sel
  by_cases h1 : isNull sel = true
  · rw [if_pos h1]
    exact ⟨fun h => (by cases h), fun h => absurd (hn.1 h1) h.2.1⟩
  rw [if_neg h1, bind_readDesc]
  have h1' : ¬ Spec.nullSel sel := fun h => h1 (hn.2 h)
  by_cases h2 : outside s.r sel
  · rw [if_pos h2]
    exact ⟨fun h => (by cases h), fun h => absurd h2 h.2.2.1⟩
  rw [if_neg h2]
  by_cases h3 : acc s (Spec.descAddr s.r sel) 8 false 2 = true
  · rw [if_pos h3, hT]
    exact ⟨fun h => ⟨h.1, h1', h2, h3, h.2⟩, fun h => ⟨h.1, h.2.2.2.2⟩⟩
  · rw [if_neg h3]
    exact ⟨fun h => (by cases h), fun h => absurd h.2.2.2.1 h3⟩

theorem iret_abort {acc : Acc} {k : Nat} {s s' : Cpu} :
    iretPe acc k s = .stop .abort s' ↔ s' = s ∧ ¬ s.r.eflags &&& 0x20000#32 ≠ 0#32 ∧ s.r.eflags &&& 0x4000#32 ≠ 0#32 := by
  unfold iretPe
  rw [bind_getR]
  by_cases h1 : s.r.eflags &&& 0x20000#32 ≠ 0#32
  · rw [if_pos h1]
    refine ⟨fun h => absurd h (NoAb.run ?_ s s'), fun h => absurd h1 h.2.1⟩
    noabAll
    exact noab_iretReal ..
  · rw [if_neg h1, bind_check]
    by_cases h2 : s.r.eflags &&& 0x4000#32 ≠ 0#32
    · rw [if_pos (by simpa using h2)]
      exact ⟨fun h => (by cases h; exact ⟨rfl, h1, h2⟩), fun h => by rw [h.1]⟩
    · rw [if_neg (by simpa using h2)]
      refine ⟨fun h => absurd h (NoAb.run ?_ s s'), fun h => absurd h.2.2 h2⟩
      noabAll <;> first | exact noab_iretToVm86 .. | exact noab_retPe ..

theorem updateCr0_noabort (k : CrKind) (r : Regs) (n : BitVec 32) : updateCr0 k r n ≠ .abort := by
  unfold updateCr0
  intro h
  repeat' split at h
  all_goals cases h

theorem crM_abort {f : Regs → CrRes} {s s' : Cpu} : crM f s = .stop .abort s' ↔ s' = s ∧ f s.r = .abort := by
  unfold crM
  cases f s.r with
  | gp => exact ⟨fun h => (by cases h), fun h => (by cases h.2)⟩
  | abort => exact ⟨fun h => (by cases h; exact ⟨rfl, rfl⟩), fun h => by rw [h.1]⟩
  | ok r i => exact ⟨fun h => (by cases h), fun h => (by cases h.2)⟩

theorem movToCr_abort {r : Regs} (ha : AgreeCore r) {i : Fin 5} {n : BitVec 32} :
    movToCr r i n = .abort ↔ level r = 0#2 ∧ (i = 1 ∨ (i = 4 ∧ n[5] = true ∧ n.extractLsb' 11 21 = 0#21)) := by
  have hz : r.hflags &&& H_CPL ≠ 0#32 ↔ ¬ level r = 0#2 := by
    have := cpl_zero ha
    rw [← bne_iff_ne, this, decide_eq_true_iff]
  have hn : n &&& 0xFFFFF800#32 = 0#32 ↔ n.extractLsb' 11 21 = 0#21 := by
    constructor
    · intro h
      have e : n.extractLsb' 11 21 = (n &&& 0xFFFFF800#32).extractLsb' 11 21 := by bits32
      rw [e, h]; rfl
    · intro h
      have e : n &&& 0xFFFFF800#32 = (n.extractLsb' 11 21).setWidth 32 <<< 11 := by bits32
      rw [e, h]; rfl
  have h5 := and_ne_zero_bit n 0x20#32 5 (by omega) rfl
  unfold movToCr
  by_cases hl : level r = 0#2
  · rw [if_neg (fun h => hz.1 h hl)]
    have hi : i = 0 ∨ i = 1 ∨ i = 2 ∨ i = 3 ∨ i = 4 := by revert i; decide
    rcases hi with rfl | rfl | rfl | rfl | rfl
    · exact ⟨fun h => updateCr0_noabort _ _ _ h |>.elim, fun h => by rcases h.2 with h | ⟨h, _⟩ <;> cases h⟩
    · exact ⟨fun _ => ⟨hl, .inl rfl⟩, fun _ => rfl⟩
    · exact ⟨fun h => (by cases h), fun h => by rcases h.2 with h | ⟨h, _⟩ <;> cases h⟩
    · exact ⟨fun h => (by unfold updateCr3 at h; cases h), fun h => by rcases h.2 with h | ⟨h, _⟩ <;> cases h⟩
    · show updateCr4 r n = .abort ↔ _
      unfold updateCr4
      by_cases h1 : n &&& 0xFFFFF800#32 ≠ 0#32
      · rw [if_pos h1]
        exact ⟨fun h => (by cases h), fun h => by rcases h.2 with h | ⟨_, _, h⟩; cases h; exact absurd (hn.2 h) h1⟩
      · rw [if_neg h1]
        have h1' := hn.1 (Decidable.not_not.1 h1)
        by_cases h2 : n &&& 0x20#32 ≠ 0#32
        · rw [if_pos h2]
          exact ⟨fun _ => ⟨hl, .inr ⟨rfl, h5.1 h2, h1'⟩⟩, fun _ => rfl⟩
        · rw [if_neg h2]
          exact ⟨fun h => (by cases h), fun h => by rcases h.2 with h | ⟨_, h, _⟩; cases h; exact absurd (h5.2 h) h2⟩
  · rw [if_pos (hz.2 hl)]
    exact ⟨fun h => (by cases h), fun h => absurd h.1 hl⟩

theorem lcallPe_abort {acc : Acc} {sel : BitVec 16} {k : Nat} {call ret : BitVec 32} {s s' : Cpu} :
    lcallPe acc sel call k ret s = .stop .abort s' ↔
      s' = s ∧ ¬ Spec.nullSel sel ∧ ¬ outside s.r sel ∧ acc s (Spec.descAddr s.r sel) 8 false 2 = true ∧ isTask (Spec.descAt s sel) := by
  rw [lcallPe_eq]
  exact readTail_abort (T := fun r a d => if dS d then callDirect acc sel call k ret r a d else callGate acc sel ret r d) fun r a d => callTail_abort

theorem ljmpPe_abort {acc : Acc} {sel : BitVec 16} {k : Nat} {jmp : BitVec 32} {s s' : Cpu} :
    ljmpPe acc sel k jmp s = .stop .abort s' ↔
      s' = s ∧ ¬ Spec.nullSel sel ∧ ¬ outside s.r sel ∧ acc s (Spec.descAddr s.r sel) 8 false 2 = true ∧ isTask (Spec.descAt s sel) := by
  rw [ljmpPe_eq]
  exact readTail_abort (T := fun r a d => jmpTail acc sel k jmp r a d) fun r a d => jmpTail_abort

theorem peNotVm_iff {r : Regs} (ha : AgreeCore r) : peNotVm r = true ↔ mode r = .prot := by
  constructor
  · intro h
    exact Decidable.byContradiction fun hm => by rw [peNotVm_off ha hm] at h; cases h
  · intro h; exact peNotVm_prot (prot_of ha h)

/-- The descriptor is read. -/
def Reads' (acc : Acc) (s : Cpu) : Op → Prop
  | .farJmp sel _ _ => ¬ outside s.r sel ∧ acc s (Spec.descAddr s.r sel) 8 false 2 = true
  | .farCall sel _ _ _ => ¬ outside s.r sel ∧ acc s (Spec.descAddr s.r sel) 8 false 2 = true
  | _ => True

theorem instr_abort {acc : Acc} {o : Op} {s s' : Cpu} (ha : AgreeCore s.r) :
    instr acc o s = .stop .abort s' ↔ s' = s ∧ Unsupported s o ∧ Reads' acc s o := by
  cases o with
  | loadSeg i sel =>
    refine ⟨fun h => absurd h (NoAb.run ?_ s s'), fun h => h.2.1.elim⟩
    cases i <;> unfold instr <;> noabAll <;> first | exact noab_movSelPe .. | exact noab_movSelReal ..
  | farJmp sel k eip =>
    show (getR >>= fun r => if peNotVm r then ljmpPe acc sel k eip else farReal sel eip) s = _ ↔ _
    rw [bind_getR]
    by_cases hm : mode s.r = .prot
    · rw [if_pos ((peNotVm_iff ha).2 hm), ljmpPe_abort]
      exact ⟨fun h => ⟨h.1, ⟨hm, h.2.1, h.2.2.2.2⟩, h.2.2.1, h.2.2.2.1⟩, fun h => ⟨h.1, h.2.1.2.1, h.2.2.1, h.2.2.2, h.2.1.2.2⟩⟩
    · rw [if_neg (fun h => hm ((peNotVm_iff ha).1 h))]
      exact ⟨fun h => absurd h ((noab_farReal ..).run s s'), fun h => absurd h.2.1.1 hm⟩
  | farCall sel k eip ret =>
    show (getR >>= fun r => if peNotVm r then lcallPe acc sel eip k ret else farCallReal acc sel k eip ret) s = _ ↔ _
    rw [bind_getR]
    by_cases hm : mode s.r = .prot
    · rw [if_pos ((peNotVm_iff ha).2 hm), lcallPe_abort]
      exact ⟨fun h => ⟨h.1, ⟨hm, h.2.1, h.2.2.2.2⟩, h.2.2.1, h.2.2.2.1⟩, fun h => ⟨h.1, h.2.1.2.1, h.2.2.1, h.2.2.2, h.2.1.2.2⟩⟩
    · rw [if_neg (fun h => hm ((peNotVm_iff ha).1 h))]
      exact ⟨fun h => absurd h ((noab_farCallReal ..).run s s'), fun h => absurd h.2.1.1 hm⟩
  | farRet k =>
    refine ⟨fun h => absurd h (NoAb.run ?_ s s'), fun h => h.2.1.elim⟩
    unfold instr; noabAll <;> first | exact noab_lretPe .. | exact noab_farRetReal ..
  | iret k =>
    show (getR >>= fun r => if r.hflags &&& H_PE ≠ 0#32 then iretPe acc k else iretReal acc k) s = _ ↔ _
    rw [bind_getR]
    have hnt := and_ne_zero_bit s.r.eflags 0x4000#32 14 (by omega) rfl
    by_cases hp : s.r.hflags &&& H_PE ≠ 0#32
    · rw [if_pos hp, iret_abort]
      have hm : mode s.r = .prot ↔ ¬ s.r.eflags &&& 0x20000#32 ≠ 0#32 := by
        rw [← peNotVm_iff ha]
        unfold peNotVm
        constructor
        · intro h; revert h; by_cases h2 : s.r.eflags &&& 0x20000#32 = 0#32 <;> simp [h2]
        · intro h
          have h2 := Decidable.not_not.1 h
          simp only [h2, ne_eq] at *
          simpa using hp
      exact ⟨fun h => ⟨h.1, ⟨hm.2 h.2.1, hnt.1 h.2.2⟩, trivial⟩, fun h => ⟨h.1, hm.1 h.2.1.1, hnt.2 h.2.1.2⟩⟩
    · rw [if_neg hp]
      have hm : ¬ mode s.r = .prot := by
        rw [← peNotVm_iff ha]
        unfold peNotVm
        have := Decidable.not_not.1 hp
        simp [this]
      exact ⟨fun h => absurd h ((noab_iretReal ..).run s s'), fun h => absurd h.2.1.1 hm⟩
  | movCr i n =>
    show crM (fun r => movToCr r i n) s = _ ↔ _
    rw [crM_abort, movToCr_abort ha]
    exact ⟨fun h => ⟨h.1, h.2, trivial⟩, fun h => ⟨h.1, h.2.1⟩⟩
  | lmsw v =>
    show crM (fun r => Seg.lmsw r v) s = _ ↔ _
    rw [crM_abort]
    refine ⟨fun h => absurd h.2 ?_, fun h => h.2.1.elim⟩
    unfold Seg.lmsw
    intro h
    repeat' split at h
    all_goals first | cases h | exact updateCr0_noabort _ _ _ h
  | clts =>
    show crM Seg.clts s = _ ↔ _
    rw [crM_abort]
    refine ⟨fun h => absurd h.2 ?_, fun h => h.2.1.elim⟩
    unfold Seg.clts
    intro h
    repeat' split at h
    all_goals cases h
  | ltr sel =>
    refine ⟨fun h => absurd h (NoAb.run ?_ s s'), fun h => h.2.1.elim⟩
    unfold instr; noabAll; exact noab_ltr ..
  | lldt sel =>
    refine ⟨fun h => absurd h (NoAb.run ?_ s s'), fun h => h.2.1.elim⟩
    unfold instr; noabAll; exact noab_lldt ..
  | event k idx code cr2 => exact ⟨fun h => (by cases h), fun h => h.2.1.elim⟩
  | sync => exact ⟨fun h => (by cases h), fun h => h.2.1.elim⟩

theorem gateChecks_abort {acc : Acc} {k : Kind} {idx : Nat} {code : BitVec 16} {cr2 : BitVec 32} {r : Regs} {d : BitVec 64} {s s' : Cpu} :
    gateChecks acc k idx code cr2 r d s = .stop .abort s' ↔ s' = s ∧ Spec.gateKind d = 5#5 := by
  unfold gateChecks
  rw [bind_check, kind_nat, kindTask]
  by_cases h : Spec.gateKind d = 5#5
  · rw [if_pos (decide_eq_true h)]
    exact ⟨fun e => (by cases e; exact ⟨rfl, h⟩), fun e => by rw [e.1]⟩
  · rw [if_neg (fun e => h (of_decide_eq_true e))]
    refine ⟨fun e => absurd e (NoAb.run ?_ s s'), fun e => absurd e.2 h⟩
    unfold codeChecks codeTail afterChecks
    noabAll <;> exact noab_fromVm86 ..

/-- The gate in the table is a task gate. -/
def TG (s : Cpu) (idx : Nat) : Prop := idx * 8 + 7 ≤ s.r.idtLimit.toNat ∧ Spec.gateKind (Spec.gateAt s idx) = 5#5

theorem deliverIdt_abort {acc : Acc} {k : Kind} {idx : Nat} {code : BitVec 16} {cr2 : BitVec 32} {s s' : Cpu} :
    deliverIdt acc k idx code cr2 s = .stop .abort s' ↔
      s' = s ∧ acc s (s.r.idtBase + BitVec.ofNat 32 (idx * 8)) 8 false 2 = true ∧ TG s idx := by
  rw [deliverIdt_eq, bind_getR, bind_check, bind_rd]
  have hg : BitVec.ofNat 64 (load s.mem (s.r.idtBase + BitVec.ofNat 32 (idx * 8)) 8) = Spec.gateAt s idx := rfl
  rw [hg]
  unfold TG
  by_cases h1 : s.r.idtLimit.toNat < idx * 8 + 7
  · rw [if_pos (decide_eq_true h1)]
    exact ⟨fun e => (by cases e), fun e => absurd e.2.2.1 (by omega)⟩
  rw [if_neg (fun e => h1 (of_decide_eq_true e))]
  by_cases h2 : acc s (s.r.idtBase + BitVec.ofNat 32 (idx * 8)) 8 false 2 = true
  · rw [if_pos h2]
    exact ⟨fun e => have e := gateChecks_abort.1 e; ⟨e.1, h2, by omega, e.2⟩, fun e => gateChecks_abort.2 ⟨e.1, e.2.2.2⟩⟩
  · rw [if_neg h2]
    exact ⟨fun e => (by cases e), fun e => absurd e.2.1 h2⟩

theorem deliver_abort {acc : Acc} {k : Kind} {idx : Nat} {code : BitVec 16} {cr2 : BitVec 32} {s s' : Cpu}
    (h : deliver acc k idx code cr2 s = .stop .abort s') : s' = s ∧ s.r.hflags &&& H_PE ≠ 0#32 ∧ TG s idx := by
  unfold deliver at h
  rw [bind_getR] at h
  split at h
  case isFalse => exact absurd h (NoAb.run (by unfold deliverReal; noabAll) s s')
  case isTrue hp =>
    dsimp only at h
    rw [bind_check] at h
    split at h
    · cases h
    split at h
    · rw [bind_rd] at h
      split at h
      case isFalse => cases h
      case isTrue =>
        rw [bind_rd] at h
        split at h
        case isFalse => cases h
        case isTrue =>
          split at h
          · exact absurd h ((noab_vmeRedirect ..).run s s')
          · rw [bind_check] at h
            split at h
            · cases h
            · have := deliverIdt_abort.1 h; exact ⟨this.1, hp, this.2.2⟩
    · have := deliverIdt_abort.1 h; exact ⟨this.1, hp, this.2.2⟩

theorem raise_abort {acc : Acc} {pf : Cpu → BitVec 16 × BitVec 32} {fuel : Nat} {k : Kind} {old : Option Nat} {idx : Nat} {code : BitVec 16}
    {cr2 : BitVec 32} {s s' : Cpu} (h : raise acc pf fuel k old idx code cr2 s = .abort s') :
    s'.r.hflags &&& H_PE ≠ 0#32 ∧ ∃ i, TG s' i := by
  induction fuel generalizing k old idx code cr2 s with
  | zero => cases h
  | succ n ih =>
    unfold raise at h
    dsimp only at h
    split at h
    · cases h
    · rename_i idx' code' old' _
      cases hd : deliver acc k idx' code' cr2 s with
      | ok a x => rw [hd] at h; cases h
      | stop e x =>
        rw [hd] at h
        cases e with
        | exc i c => exact ih h
        | fault => exact ih h
        | abort =>
          have := deliver_abort hd
          cases h
          rw [this.1]
          exact ⟨this.2.1, _, this.2.2⟩

theorem taskGate_of {s : Cpu} (ha : AgreeCore s.r) (hp : s.r.hflags &&& H_PE ≠ 0#32) {i : Nat} (h : TG s i) : TaskGate s i := by
  refine ⟨fun hm => ?_, h.1, h.2⟩
  have hr := (mode_real_iff _).1 hm
  have := and_ne_zero_bit s.r.hflags H_PE 4 (by omega) rfl
  have h4 := this.1 hp
  have := ha.pe
  rw [h4] at this
  exact absurd this.symm (by rw [hr]; exact Bool.false_ne_true)

end Verif.Seg
